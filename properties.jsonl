{"id": "C01", "title": "Minimum-count grouping delivers what it reports", "statement": "Data.group('min', n) on a segment of channels yields flags that start a group at the first channel, and reports success exactly when the segment holds at least n counts in total; when it reports success every group has at least n counts, every group but the last is minimal (it stops at the first channel where n is reached), and no other contiguous grouping with at least n counts per group has more groups.", "quantifier": "all non-empty arrays of non-negative channel counts and all positive integers n", "why_tests_cant": "the greedy closing rule and the merge of the trailing group interact with every pattern of zeros and every length; a finite set of spectra cannot cover them", "anchors": ["src/elisa/data/grouping.py:group_min", "src/elisa/data/base.py:ObservationData.group"]}
{"id": "C02", "title": "Constant grouping never produces a short group", "statement": "Data.group('const', c) splits the segment in consecutive groups of exactly c channels except that the last one absorbs the remainder (at least c, fewer than 2c channels), and the first channel of the segment starts a group.", "quantifier": "all channel numbers n and all c >= 1", "why_tests_cant": "boundary arithmetic on n mod c must hold for every pair (n, c); the failing region n < c is easy to miss by sampling", "anchors": ["src/elisa/data/grouping.py:group_const"]}
{"id": "C03", "title": "Optimal grouping respects the optimal bin width of every channel it contains", "statement": "Data.group('opt') partitions the segment; each group is contiguous, and for every channel k inside a group the group ends no later than k + bint[k] - 1, where bint[k] is the optimal width at k; groups are maximal under this rule.", "quantifier": "all non-empty width arrays bint >= 1 of any length", "why_tests_cant": "the width constraint couples all channels in a group; tests look at a few FWHM profiles", "anchors": ["src/elisa/data/grouping.py:group_opt", "src/elisa/data/grouping.py:_calc_optimal_binning"]}
{"id": "C04", "title": "Optimal grouping with minimum counts delivers what it reports", "statement": "Data.group('optmin', n) returns a partition of the segment whose groups all hold at least n counts whenever success is reported, reports success exactly when the segment total is at least n, and never makes a group (other than the merged last one) longer than needed by both the optimal width and the count requirement.", "quantifier": "all non-empty count arrays with non-negative counts, all widths >= 1, all n >= 1", "why_tests_cant": "extension of groups by cumulative sums and the merge of the tail must be right for every count pattern", "anchors": ["src/elisa/data/grouping.py:group_opt"]}
{"id": "C05", "title": "Significance grouping delivers what it reports", "statement": "Data.group('sig', s) / ('bsig', s) (Li-Ma, Gaussian-background, or normal significance recomputed per candidate group) yields a partition starting at the first channel; success is reported exactly when every final group has significance >= s; every group except the last reached the threshold at its final channel and not before.", "quantifier": "all non-empty data arrays, all thresholds, all significance functions of an interval", "why_tests_cant": "significance is not monotone in the interval, so the correctness of the greedy loop with tail merge cannot be read from examples", "anchors": ["src/elisa/data/grouping.py:group_sig_lima", "src/elisa/data/grouping.py:group_sig_gv", "src/elisa/data/grouping.py:group_sig_normal"]}
{"id": "C06", "title": "Optimal significance grouping delivers what it reports", "statement": "Data.group('optsig', s) and ('optbsig', s) yield a partition starting at the first channel; success is reported exactly when every final group reaches the threshold; every group except the last is at least as wide as the optimal bin and stops at the first channel from there where the threshold is met.", "quantifier": "all non-empty data arrays, all widths >= 1, all thresholds", "why_tests_cant": "two nested loops and a merge; non-monotone significance", "anchors": ["src/elisa/data/grouping.py:group_optsig_lima", "src/elisa/data/grouping.py:group_optsig_gv", "src/elisa/data/grouping.py:group_optsig_normal"]}
{"id": "C07", "title": "Regrouping grouped scale factors equals grouping the raw channels once", "statement": "Grouping AREASCAL/BACKSCAL with a first grouping and regrouping the result with a second grouping gives the same effective scale and sufficient statistics as grouping the raw channels once with the composed grouping, for NET (arithmetic) and count-weighted (harmonic) averaging and any channel quality.", "quantifier": "all counts, scales, qualities and all pairs of composable groupings", "why_tests_cant": "an algebraic identity over all arrays; also must hold in all fallback branches (zero counts, zero scales, all-bad groups)", "anchors": ["src/elisa/data/grouping.py:_group_scale_data", "src/elisa/data/grouping.py:_scale_from_interval", "src/elisa/data/grouping.py:_build_scale_prefix"]}
{"id": "C08", "title": "Interval background ratio used while grouping equals the ratio of the final group", "statement": "The background ratio evaluated for a candidate group [i, j) while searching for groups equals the ratio that the final grouped observation reports for that group.", "quantifier": "all scale data and all intervals", "why_tests_cant": "two different algorithms (prefix sums vs reduceat) must agree on every interval including degenerate ones", "anchors": ["src/elisa/data/grouping.py:_interval_back_ratio", "src/elisa/data/grouping.py:_interval_ratios", "src/elisa/data/grouping.py:_group_back_ratio", "src/elisa/data/grouping.py:_interval_sum"]}
{"id": "C09", "title": "A grouped scale is a genuine mean of its channels", "statement": "The effective scale of a group lies between the smallest and the largest scale of its good channels when scales are positive and counts non-negative; a constant scale is preserved; and total counts / effective scale equals the sum of counts / scale.", "quantifier": "all positive scale arrays, non-negative counts and qualities with a good channel in the group", "why_tests_cant": "inequality over all arrays and both averaging rules", "anchors": ["src/elisa/data/grouping.py:_group_scale_data"]}
{"id": "C10", "title": "Li-Ma significance is real, signed and vanishes only without excess", "statement": "For every non-negative on/off count pair and positive ratio the radicand in the Li-Ma significance is non-negative, the significance is zero exactly when n_on = a n_off, positive exactly for an excess and negative exactly for a deficit.", "quantifier": "all real n_on, n_off >= 0 and a > 0", "why_tests_cant": "an inequality of logarithms over a continuum", "anchors": ["src/elisa/data/grouping.py:significance_lima"]}
{"id": "C11", "title": "Gaussian-background significance is real, signed and profiled correctly", "statement": "For n >= 0, background b >= 0, error s > 0 and ratio a > 0 the internal background estimate is the maximiser of the profile likelihood, the radicand is non-negative and the significance vanishes exactly when n = a b and has the sign of the excess.", "quantifier": "all real n, b >= 0 and s, a > 0", "why_tests_cant": "continuum of inputs, nested square roots and logarithms", "anchors": ["src/elisa/data/grouping.py:significance_gv"]}
{"id": "C12", "title": "Grouping conserves counts and variances", "statement": "For any grouping flags, the grouped counts sum to the total counts of good channels, the squared grouped errors sum to the total squared errors of good channels, and the number of groups is the number of group-start flags.", "quantifier": "all spectra, all qualities, all grouping flags starting with a group start", "why_tests_cant": "must hold for any grouping array, not just ones used in tests", "anchors": ["src/elisa/data/base.py:SpectrumData.group", "src/elisa/data/base.py:ObservationData.set_grouping"]}
{"id": "C13", "title": "Bad channels never influence the fitted data", "statement": "Changing the counts, errors or scale of a bad channel changes no grouped counts, error, scale, net counts or ratio that is used in a fit; a group with no good channel is excluded from the data.", "quantifier": "all spectra, qualities, groupings and all modifications of bad channels", "why_tests_cant": "a non-interference property relating two arbitrary runs", "anchors": ["src/elisa/data/base.py:ObservationData.set_grouping", "src/elisa/data/base.py:ObservationData.good_quality", "src/elisa/data/base.py:SpectrumData.group", "src/elisa/data/grouping.py:_group_scale_data"]}
{"id": "C14", "title": "Noticed groups are exactly those inside a requested energy range with a good channel", "statement": "After set_erange and set_grouping, a group is in the data exactly when some requested range contains its whole energy interval and it holds at least one good channel.", "quantifier": "all energy ranges, channel energies, qualities and groupings", "why_tests_cant": "quantifies over all ranges and groupings", "anchors": ["src/elisa/data/base.py:ObservationData.set_erange", "src/elisa/data/base.py:ObservationData.set_grouping"]}
{"id": "C15", "title": "Energy range validation accepts exactly strictly increasing, disjoint, non-touching ranges", "statement": "set_erange succeeds exactly when every range has emin < emax and, in some order, they are pairwise separated; the stored ranges are sorted and are a permutation of the given ones; on failure the previous ranges, grouping and data are unchanged.", "quantifier": "all finite lists of (emin, emax) pairs and all prior states", "why_tests_cant": "all orderings and overlaps of arbitrarily many ranges", "anchors": ["src/elisa/data/base.py:ObservationData.set_erange"]}
{"id": "C16", "title": "Net spectrum and its error are propagated correctly", "statement": "For every group net counts = on counts - ratio * off counts and squared net error = on variance + ratio^2 * off variance; without background both reduce to the spectrum itself; ce = net / (width * exposure).", "quantifier": "all grouped data", "why_tests_cant": "every group and both presence/absence of background", "anchors": ["src/elisa/data/base.py:ObservationData.set_grouping"]}
{"id": "C17", "title": "Requested grouping is the grouping obtained", "statement": "Data.group(method, scale) produces, among the noticed channels of each energy range, exactly the groups returned by the method, so that a success report means every noticed group meets the requested scale.", "quantifier": "all observations, energy ranges, quality flags and methods", "why_tests_cant": "interplay of quality flags inside a group, energy filter and previous grouping ranges over all histories", "anchors": ["src/elisa/data/base.py:ObservationData.group"]}
{"id": "C18", "title": "Folding a model commutes with grouping", "statement": "Folding a photon spectrum through the grouped response gives the same channel counts as folding through the ungrouped response and then summing the good channels of each group.", "quantifier": "all response matrices, model spectra, groupings and qualities", "why_tests_cant": "linear-algebra identity over all matrices and groupings", "anchors": ["src/elisa/data/base.py:ResponseData.group", "src/elisa/models/model.py:CompiledModel.ce"]}
{"id": "C19", "title": "Spectrum systematic errors enter exactly once", "statement": "A spectrum read from OGIP with statistical error e and fractional systematic error f has total error sqrt(e^2 + (f * counts)^2) in each channel.", "quantifier": "all non-Poisson spectra", "why_tests_cant": "the two layers each apply the formula; only an all-input statement about the composition settles it", "anchors": ["src/elisa/data/ogip.py:Spectrum.__init__", "src/elisa/data/base.py:SpectrumData.__init__"]}
{"id": "C20", "title": "OGIP response decoding is exact", "statement": "Decoding the compressed (N_GRP, F_CHAN, N_CHAN, MATRIX) representation of any redistribution matrix rebuilds that matrix entry by entry, whatever the padding; truncated rows are rejected instead of being misread.", "quantifier": "all matrices and all their encodings in channel subsets", "why_tests_cant": "the encoding has arbitrarily many subsets and padding per row", "anchors": ["src/elisa/data/ogip.py:_read_response", "src/elisa/data/ogip.py:Response"]}
{"id": "C21", "title": "Spectrum validation: accepted spectra satisfy the documented invariants", "statement": "A spectrum object can only be created with quality flags in the documented set, non-negative errors, non-negative integer-like counts when Poisson, positive exposure, positive scales in non-ignored channels, matching array lengths, and a grouping that begins with a group start.", "quantifier": "all constructor inputs", "why_tests_cant": "conjunction of validations over every possible array combination", "anchors": ["src/elisa/data/base.py:SpectrumData.__init__"]}
{"id": "C22", "title": "wstat background profile is the conditional maximum-likelihood background", "statement": "For every source expectation s >= 0, on/off counts and ratio a > 0, the background returned maximises the joint Poisson likelihood over all non-negative backgrounds.", "quantifier": "all real s >= 0 (s > 0), n_on, n_off >= 0, a > 0", "why_tests_cant": "a continuum and several analytic branches", "anchors": ["src/elisa/infer/likelihood.py:wstat_background"]}
{"id": "C23", "title": "pgstat background profile is the conditional maximum-likelihood background", "statement": "For every source expectation s > 0, counts n >= 0, background estimate b, error e > 0 and ratio a > 0 the background returned is non-negative and maximises the joint Poisson-Gaussian likelihood over all non-negative backgrounds.", "quantifier": "all real inputs in the domain", "why_tests_cant": "a continuum and several analytic branches", "anchors": ["src/elisa/infer/likelihood.py:pgstat_background"]}
{"id": "C24", "title": "Fit statistic of one Poisson channel is non-negative and zero only for a perfect model", "statement": "The normalised Poisson log likelihood is never positive and is zero exactly when the model equals the data, hence the C-statistic contribution is non-negative.", "quantifier": "all real counts n >= 0 and expectation mu > 0", "why_tests_cant": "continuum", "anchors": ["src/elisa/infer/likelihood.py:BetterPoisson", "src/elisa/infer/likelihood.py:cstat"]}
{"id": "C25", "title": "Total fit statistic is the sum over channels and data sets", "statement": "The total deviance equals the sum of per-data-set deviances, each equal to the sum of per-channel deviances, and equals the sum of squared deviance residuals.", "quantifier": "all collections of data sets of any size", "why_tests_cant": "arbitrary number of data sets and channels", "anchors": ["src/elisa/infer/helper.py:get_helper", "src/elisa/infer/fit.py:Fit", "src/elisa/plot/residuals.py:deviance_residuals_poisson"]}
{"id": "C26", "title": "Free parameters always start strictly inside their bounds", "statement": "For any history of creating a parameter and assigning default/min/max/fixed/log, a free parameter has min < default < max, and a log parameter has min > 0.", "quantifier": "all histories of attribute assignments", "why_tests_cant": "arbitrary sequences of setter calls", "anchors": ["src/elisa/models/parameter.py:UniformParameter"]}
{"id": "C27", "title": "Rejected parameter updates leave the parameter unchanged", "statement": "When an assignment to default/min/max/fixed raises, the observable value, bounds, fixedness and scale are the ones before the assignment.", "quantifier": "all states and all assigned values", "why_tests_cant": "every state and every rejected value", "anchors": ["src/elisa/models/parameter.py:UniformParameter"]}
{"id": "C28", "title": "Parameter assignment bookkeeping mirrors the model at all times", "statement": "After any sequence of parameter assignments over any components, the record of a parameter lists exactly the component slots that currently hold it.", "quantifier": "all finite assignment histories over all components and parameters", "why_tests_cant": "histories of arbitrary length", "anchors": ["src/elisa/models/parameter.py:AssignmentTracker", "src/elisa/models/model.py:_param_setter"]}
{"id": "C29", "title": "Composite parameter labels denote the expression that is evaluated", "statement": "Reading the displayed name of a composite parameter with ordinary operator precedence gives back an expression with the same value as the parameter for all values of its leaves.", "quantifier": "all expression trees built with + - * / ** and all leaf values", "why_tests_cant": "unbounded nesting of operators; parenthesisation rules are subtle", "anchors": ["src/elisa/models/parameter.py:CompositeParameter"]}
{"id": "C30", "title": "Composite parameter evaluation substitutes values and falls back to captured defaults", "statement": "The value of a composite parameter is the expression applied to the supplied values of its leaves, with the default at compile time for leaves not supplied; later mutation of defaults does not change a compiled model.", "quantifier": "all expression trees, all partial mappings, all later mutations", "why_tests_cant": "unbounded expression trees and histories", "anchors": ["src/elisa/models/parameter.py:CompositeParameter", "src/elisa/models/model.py:Model.compile"]}
{"id": "C31", "title": "Model algebra is type-safe and evaluates pointwise", "statement": "A model expression built with + and * is accepted exactly when it type-checks (add+add, mul*mul, add*mul, mul*add, mul+mul is rejected), its type is add iff it contains an additive part at the top, and its value is the corresponding arithmetic on component values.", "quantifier": "all model expression trees", "why_tests_cant": "unbounded nesting", "anchors": ["src/elisa/models/model.py:CompositeModel", "src/elisa/models/model.py:Model.__add__", "src/elisa/models/model.py:Model.__mul__"]}
{"id": "C32", "title": "Additive components decompose the total model", "statement": "Evaluating a compiled additive model with comps=True yields sub-models whose values add up to the value of the total model.", "quantifier": "all model expression trees, parameter values and energy grids", "why_tests_cant": "distribution of * over + with arbitrary nesting, repeated components, convolutions", "anchors": ["src/elisa/models/model.py:Model._additive_comps", "src/elisa/models/model.py:CompiledModel"]}
{"id": "C33", "title": "Positional and keyword evaluation agree", "statement": "Evaluating a compiled model on a sequence of values in the order of its parameter list gives the same result as a mapping by name.", "quantifier": "all models with any sharing of parameters", "why_tests_cant": "depends on how parameters are shared among components", "anchors": ["src/elisa/models/model.py:CompiledModel.eval", "src/elisa/models/model.py:_value_sequence_to_params"]}
{"id": "C34", "title": "Namespaces assign unique names", "statement": "The names generated for components, parameters and data sets are pairwise distinct and each begins with the given label, with first occurrences kept unchanged.", "quantifier": "all lists of names, with and without primes", "why_tests_cant": "collisions need specific name patterns", "anchors": ["src/elisa/util/misc.py:build_namespace", "src/elisa/util/misc.py:add_suffix"]}
{"id": "C35", "title": "Photon flux over a band is independent of the grid partition", "statement": "For models with analytic bin integrals the photon flux over [emin, emax] equals the sum over any partition into bins and is additive over adjacent bands.", "quantifier": "all partitions and bands", "why_tests_cant": "all partitions", "anchors": ["src/elisa/models/model.py:CompiledModel.flux", "src/elisa/models/model.py:CompiledModel.ne", "src/elisa/models/add.py:_powerlaw_integral"]}
{"id": "C36", "title": "Power law bins are exact integrals", "statement": "PowerLaw bin values equal K times the integral of E^-alpha on the bin for every index, including alpha = 1.", "quantifier": "all 0 < e1 <= e2, real alpha and K", "why_tests_cant": "continuum, removable singularity", "anchors": ["src/elisa/models/add.py:_powerlaw_integral", "src/elisa/models/add.py:PowerLaw"]}
{"id": "C37", "title": "Broken power law bins are the integrals of the documented continuum", "statement": "BrokenPL bin values equal the integral of the documented N(E) on each bin, including the bin that contains the break.", "quantifier": "all grids, break energies and indices", "why_tests_cant": "needs a statement for every bin/break position", "anchors": ["src/elisa/models/add.py:BrokenPL"]}
{"id": "C38", "title": "Flux-normalised power laws deliver the requested flux", "statement": "PLPhFlux (PLEnFlux) integrated over [emin, emax] gives photon flux F (energy flux F in erg).", "quantifier": "all indices, bands and F", "why_tests_cant": "continuum and special indices alpha = 1, 2", "anchors": ["src/elisa/models/add.py:PLFluxNorm", "src/elisa/models/add.py:PLPhFlux", "src/elisa/models/add.py:PLEnFlux"]}
{"id": "C39", "title": "Band function is continuous and BandEp agrees with Band and peaks at Ep", "statement": "The Band spectrum is continuous at its break; BandEp(alpha, beta, Ep) equals Band(alpha, beta, Ep/(2+alpha)); E^2 N(E) of BandEp with alpha > -2 > beta is maximal at Ep.", "quantifier": "all parameters in the documented ranges and all energies", "why_tests_cant": "continuum of parameters incl. the beta > alpha workaround", "anchors": ["src/elisa/models/add.py:Band", "src/elisa/models/add.py:BandEp"]}
{"id": "C40", "title": "Redshift and velocity shifts compose and conserve photons", "statement": "ZAShift followed by ZAShift equals one shift with (1+z) multiplied; the shifted flux in a band equals the rest-frame flux in the shifted band divided by 1+z; z = 0 is the identity.", "quantifier": "all models and redshifts > -1", "why_tests_cant": "for all models", "anchors": ["src/elisa/models/conv.py:ZAShift", "src/elisa/models/conv.py:ZMShift", "src/elisa/models/conv.py:VAShift", "src/elisa/models/conv.py:VMShift"]}
{"id": "C41", "title": "Flux convolution delivers the requested flux whatever the input normalisation", "statement": "PhFlux applied to any additive model gives photon flux F on its band grid, and the result does not depend on the normalisation of the input model.", "quantifier": "all models with non-zero flux, all positive scalings", "why_tests_cant": "for all models", "anchors": ["src/elisa/models/conv.py:PhFlux", "src/elisa/models/conv.py:EnFlux"]}
{"id": "C42", "title": "Numerical bin integration is exact for linear (trapz) and cubic (simpson) continua and linear in the continuum", "statement": "NumInt components integrate polynomials of degree <= 1 (trapz) or <= 3 (simpson) exactly on each bin; multiplicative components return the bin average, so the constant 1 maps to 1.", "quantifier": "all grids and polynomials", "why_tests_cant": "continuum", "anchors": ["src/elisa/models/model.py:NumericalIntegral", "src/elisa/models/model.py:NumIntAdditive", "src/elisa/models/model.py:NumIntMultiplicative"]}
{"id": "C43", "title": "Default statistic is always admissible", "statement": "For every kind of data the automatically chosen statistic passes the compatibility check, and a statistic incompatible with the data is always rejected.", "quantifier": "all data kinds (Poisson/Gaussian spectrum, Poisson/Gaussian/no background, zero errors) and statistics", "why_tests_cant": "the two tables live in different files and must agree on the full product", "anchors": ["src/elisa/infer/helper.py:get_stat", "src/elisa/infer/helper.py:check_stat", "src/elisa/infer/fit.py:Fit"]}
{"id": "C44", "title": "Fit input broadcasting pairs each data set with the intended model and statistic", "statement": "Fit accepts exactly when the number of models (statistics) is 1 or the number of data sets, pairs data i with model i (or the only one), and rejects duplicate data names; every pair is present exactly once.", "quantifier": "all list lengths", "why_tests_cant": "all list lengths and name patterns", "anchors": ["src/elisa/infer/fit.py:Fit._parse_input"]}
{"id": "C45", "title": "Degrees of freedom and information criteria are consistent", "statement": "dof = total number of noticed groups - number of free parameters; AIC and BIC follow from the total deviance; AICc >= AIC whenever defined.", "quantifier": "all data sets and models", "why_tests_cant": "all numbers", "anchors": ["src/elisa/infer/helper.py:get_helper", "src/elisa/infer/results.py:MLEResult"]}
{"id": "C46", "title": "Parallel batch evaluation equals sequential evaluation", "statement": "Running a batch of n fits on p devices by reshaping to (p, n/p) and concatenating returns, in order, the same results as running them one by one; when n is not a multiple of p the code refuses or rounds n up to a multiple.", "quantifier": "all n, p and per-item functions", "why_tests_cant": "all sizes", "anchors": ["src/elisa/infer/helper.py:get_helper", "src/elisa/util/misc.py:get_parallel_number", "src/elisa/infer/results.py:MLEResult.boot"]}
{"id": "C47", "title": "Progress reporting counts every evaluation exactly once under every schedule", "statement": "With any interleaving of parallel workers the progress bar advances by exactly the total number of evaluations and is closed only after all workers finished.", "quantifier": "all interleavings of all workers", "why_tests_cant": "schedules", "anchors": ["src/elisa/util/misc.py:progress_bar_factory"]}
{"id": "C48", "title": "Confidence level conversion is monotone and idempotent", "statement": "Values below 1 are taken as probability and values >= 1 as number of sigmas; the result lies in (0,1), is idempotent, and credible-interval quantiles are symmetric and ordered.", "quantifier": "all positive levels", "why_tests_cant": "continuum", "anchors": ["src/elisa/infer/results.py:_to_unit_cl"]}
{"id": "C49", "title": "Bootstrap and posterior-predictive p-values are genuine frequencies", "statement": "Each p-value is the fraction of simulated deviances at least as large as the observed, lies in [0,1] and decreases when the observed deviance increases.", "quantifier": "all simulated samples", "why_tests_cant": "all samples", "anchors": ["src/elisa/infer/results.py:BootstrapResult", "src/elisa/infer/results.py:PPCResult"]}
{"id": "C50", "title": "Parameter array and mapping conversions are inverse", "statement": "Converting a parameter mapping to an array and back, or an array to a mapping and back, is the identity when names are unique.", "quantifier": "all name lists and values", "why_tests_cant": "all lengths", "anchors": ["src/elisa/infer/helper.py:get_helper"]}
{"id": "C51", "title": "Parameter selection is validated, ordered and duplicate-free", "statement": "Selecting parameters by name returns them without duplicates in the canonical order, and any name that is unknown or not free/composite is rejected.", "quantifier": "all requested name lists", "why_tests_cant": "all lists", "anchors": ["src/elisa/infer/helper.py:check_params", "src/elisa/infer/results.py:FitResult"]}
{"id": "C52", "title": "Dataset simulation uses the distribution of the likelihood", "statement": "Simulated data are generated from the same distribution (means and standard deviations) as the one in the likelihood for each statistic.", "quantifier": "all statistics and data", "why_tests_cant": "two code paths for each statistic", "anchors": ["src/elisa/infer/helper.py:get_simulator", "src/elisa/infer/likelihood.py"]}
{"id": "C53", "title": "Deviance residuals square to the deviance and carry the sign of the misfit", "statement": "For Poisson data the square of the deviance residual equals the deviance and its sign equals the sign of data - model.", "quantifier": "all counts and models", "why_tests_cant": "continuum", "anchors": ["src/elisa/plot/residuals.py:deviance_residuals_poisson", "src/elisa/plot/residuals.py:deviance_residuals_poisson_poisson"]}
{"id": "C54", "title": "Parallel worker number is always between 1 and the number of devices", "statement": "get_parallel_number returns a value between 1 and the device count or raises; set_cpu_cores always leaves exactly one device-count flag with a positive count and keeps all other flags.", "quantifier": "all requested numbers, device counts and environment strings", "why_tests_cant": "all environments", "anchors": ["src/elisa/util/config.py:get_parallel_number", "src/elisa/util/config.py:set_cpu_cores"]}
{"id": "C55", "title": "Lorentz line is normalised to its flux parameter", "statement": "Lorentz bins are exact integrals of a Lorentzian with FWHM sigma, and the total flux on (0, infinity) equals K.", "quantifier": "all parameters", "why_tests_cant": "continuum, improper integral", "anchors": ["src/elisa/models/add.py:Lorentz"]}
{"id": "C56", "title": "Net spectra are centred on the folded model", "statement": "The net spectrum computed from the expected \"on\" and \"off\" counts, (on - ratio*off)/(exposure*width), equals the folded model spectrum source_rate/width, for every statistic.", "quantifier": "all data, models and statistics", "why_tests_cant": "an identity between two independent code paths (likelihood sites and net-counts computation) over all data", "anchors": ["src/elisa/infer/helper.py:get_helper", "src/elisa/infer/likelihood.py"]}
{"id": "C57", "title": "Probability integral transforms are probabilities and limits are flagged on the right side", "statement": "The PIT of every channel is a pair lower <= upper in [0, 1]: for counts the probabilities that the modelled Poisson variable is below, and does not exceed, the data; for Gaussian data the probability that the modelled variable does not exceed them; else the upper value is the share of the simulations that do not exceed the net counts; simulation-based quantile residuals are finite, and are flagged as upper (lower) limits exactly when no (every) simulation lies below the data.", "quantifier": "all statistics, data, models and simulation outcomes", "why_tests_cant": "all data and all outcomes of the random simulation", "anchors": ["src/elisa/plot/residuals.py:pit_poisson", "src/elisa/plot/residuals.py:pit_poisson_poisson", "src/elisa/plot/residuals.py:quantile_residuals_poisson_poisson", "src/elisa/plot/data.py:MLEPlotData"]}
{"id": "C58", "title": "OGIP spectra follow the documented conventions", "statement": "Reading a spectrum: POISSERR overrides the argument and one of both is required; COUNTS, RATE or RATES (times exposure) give the counts; STAT_ERR is required for non-Poisson spectra; Poisson errors are sqrt(counts); missing QUALITY/GROUPING mean good/ungrouped; HDUCLAS2 decides whether the spectrum is net.", "quantifier": "all spectrum extensions and arguments", "why_tests_cant": "all combinations of present and absent fields", "anchors": ["src/elisa/data/ogip.py:Spectrum.__init__"]}
{"id": "C59", "title": "Dataset name resolution", "statement": "The dataset name is the given non-empty name, otherwise the first usable of DETNAM, INSTRUME, TELESCOP, otherwise an error.", "quantifier": "all headers and arguments", "why_tests_cant": "all headers", "anchors": ["src/elisa/data/ogip.py:Data.__init__", "src/elisa/data/ogip.py:Spectrum.__init__"]}
{"id": "C60", "title": "Photon energy grids are positive and increasing after reading", "statement": "A response whose lowest photon energy is zero or negative is repaired so that the photon grid is positive and strictly increasing, and nothing else is changed.", "quantifier": "all grids", "why_tests_cant": "continuum", "anchors": ["src/elisa/data/ogip.py:Response._read_response"]}
{"id": "C61", "title": "Parameter collection lists every free parameter exactly once", "statement": "Collecting the parameters of a model (what the fit and the model summary are built from) never fails on a well-formed model; each free parameter object reachable from the components, also through composite parameters, is listed once under its own number 1..n; a parameter shared by several slots is owned by exactly one slot and shown as forwarded in the others; free, composite, fixed and integrated parameters are classified correctly; every displayed parameter has a name.", "quantifier": "all component lists and all parameter expression graphs (sharing included)", "why_tests_cant": "the set of parameter graphs is infinite; a test fixes one graph", "anchors": ["src/elisa/models/model.py:get_model_info", "src/elisa/models/model.py:ModelInfo"]}
{"id": "C62", "title": "Reported energy flux is accurate to the grid spacing", "statement": "The energy flux reported on the default logarithmic grid of n points differs from the exact integral of E N(E) over [emin, emax] at most by the factor (emax/emin)^(1/(2(n-1))), in both directions, for every non-negative spectrum with exact bins.", "quantifier": "all non-negative spectra, bands and grid sizes", "why_tests_cant": "a statement about all spectra and all grids; a test checks one flux value to a tolerance", "anchors": ["src/elisa/models/model.py:CompiledModel.flux", "src/elisa/models/model.py:CompiledModel.ene"]}
{"id": "C63", "title": "Luminosity and isotropic energy refer to the rest frame", "statement": "The luminosity of a spectrum emitted at redshift z is 4 pi d^2 times its rest-frame energy flux in the rest-frame band, d being the comoving distance; the isotropic energy is that times the rest-frame duration T/(1+z).", "quantifier": "all models, redshifts, bands, grids and cosmologies", "why_tests_cant": "continuum of redshifts and cosmologies", "anchors": ["src/elisa/models/model.py:CompiledModel.lumin", "src/elisa/models/model.py:CompiledModel.eiso", "src/elisa/models/conv.py:ZAShift"]}
{"id": "C64", "title": "Numerically stabilised branches agree with the closed form", "statement": "The switches that avoid overflow (smoothly broken power law beyond exp(30), blackbody below 1e-4 kT and above 50 kT) change the spectrum by a bounded, negligible relative or absolute amount; between the switches the value is the documented formula.", "quantifier": "all energies and parameters", "why_tests_cant": "continuum; the switch points are exactly where tests do not sample", "anchors": ["src/elisa/models/add.py:SmoothlyBrokenPL", "src/elisa/models/add.py:Blackbody", "src/elisa/models/add.py:BlackbodyRad"]}
{"id": "C65", "title": "Interval parameters average the model over the interval", "statement": "A model with interval parameters (of intervals that are not empty) evaluates to 1/prod(b_i-a_i) times the integral over the intervals; the order of the intervals, their orientation and any supplied value for them are irrelevant; parts of the model that do not use the parameter are unchanged; the average of a sum is the sum of the averages.", "quantifier": "all continuous models, any number of interval parameters, all intervals and other parameter values", "why_tests_cant": "infinite family of models and nestings", "anchors": ["src/elisa/util/integrate.py:make_integral_factory", "src/elisa/models/model.py:Model._compile_model_fn", "src/elisa/models/parameter.py:ConstantInterval"]}
{"id": "C66", "title": "Absorption components are transmissions", "statement": "Every bin of an absorption component lies between 0 and 1, so that multiplying a model by it never adds photons; columns of the same gas add; interpolated cross sections agree with the table at its nodes and stay between neighbouring values; the power law absorption returns exact bin averages.", "quantifier": "all parameter values of the declared signs, all increasing positive grids, all tables", "why_tests_cant": "continuum of parameters and grids", "anchors": ["src/elisa/models/mul.py:Constant", "src/elisa/models/mul.py:Edge", "src/elisa/models/mul.py:ExpAbs", "src/elisa/models/mul.py:ExpFac", "src/elisa/models/mul.py:GAbs", "src/elisa/models/mul.py:HighECut", "src/elisa/models/mul.py:PLAbs", "src/elisa/models/mul.py:PhotonAbsorption"]}
{"id": "C67", "title": "The linear-logarithmic plot axis is a faithful scale", "statement": "For every base > 1, threshold > 0 and stretch > 0 that LinLogScale accepts, the axis transform is continuous and strictly increasing on the whole real line and its inverse undoes it in both directions; above the threshold every factor of base takes the same length and below it every unit takes the same length. The stretch computed by get_scale makes the linear part take up exactly the requested fraction of the axis. The ticks are strictly increasing and are exactly the linear locator's ticks below the threshold plus the logarithmic locator's ticks above it. As documented, with lin_scale = 1 the range [0, lin_thresh] takes the length of one decade.", "quantifier": "all bases, thresholds, stretches, data ranges, fractions and tick lists", "why_tests_cant": "the identities hold for real values; a test can only sample finitely many points of a continuous map", "anchors": ["src/elisa/plot/scale.py:LinLogTransform", "src/elisa/plot/scale.py:InvertedLinLogTransform", "src/elisa/plot/scale.py:LinLogLocator.tick_values", "src/elisa/plot/scale.py:get_scale", "src/elisa/plot/plotter.py:PlotConfig.lin_frac"]}
{"id": "C68", "title": "Kernel smoothing returns weighted means or NaN", "statement": "gaussian_kernel_smooth gives NaN at an evaluation point exactly when the total Gaussian weight there is below null_thresh, and otherwise the weighted mean of the data: within the range of the data, constants preserved, linear in the data, independent of the origin and unit of the abscissa. At the data's own abscissae it is never NaN for thresholds up to one. As documented, with the default threshold an estimate is returned up to about one sigma from the nearest datum.", "quantifier": "all data sets, widths, thresholds and evaluation points", "why_tests_cant": "bounds and linearity are statements over all real data vectors", "anchors": ["src/elisa/plot/util.py:gaussian_kernel_smooth"]}
{"id": "C69", "title": "Scaled colours are valid colours and gradients are ordered", "statement": "Scaling a colour succeeds exactly for a readable #RRGGBB string and a positive factor and returns a readable #RRGGBB string whose channels are the products cut to 0..255 and rounded down; factor one keeps the colour; a larger factor never darkens a channel. get_color_gradient returns exactly n colours, from factor_max to factor_min, no channel growing along the list, and rejects malformed colours and factors not satisfying 0 < factor_min < factor_max.", "quantifier": "all strings, factors and lengths", "why_tests_cant": "unbounded input domain of strings and real factors", "anchors": ["src/elisa/plot/util.py:_scale_color", "src/elisa/plot/util.py:get_color_gradient", "src/elisa/plot/util.py:_clip"]}
{"id": "C70", "title": "Numerical gradients of Python components", "statement": "For a component defined by a plain Python function, the value is unchanged by differentiation; the directional derivative is linear in the tangents; it is exact for components affine in each parameter (both methods) and quadratic (central); its error is at most M h^2/6 (central, M bounding the third derivative) or M h/2 (forward, M bounding the second), with h = |p| eps^(1/3) or |p| sqrt(eps) (|p| replaced by 1 at zero). Only 'central', 'forward' and None are accepted, and the gradient uses the method currently set on the component.", "quantifier": "all components, parameter vectors, tangents, step epsilons and histories of setting the method and evaluating", "why_tests_cant": "error bounds quantify over all smooth functions; the history property over all sequences of operations", "anchors": ["src/elisa/util/misc.py:define_fdjvp", "src/elisa/models/model.py:PyComponent.grad_method", "src/elisa/models/model.py:PyAnaInt.eval", "src/elisa/models/model.py:PyNumInt.eval"]}
{"id": "C71", "title": "The unit cube of the nested samplers carries the prior", "statement": "A uniformly distributed cube coordinate, mapped as the nested samplers' models map it, has exactly the law of the parameter's prior (uniform, log-uniform, any transformed, expanded, masked or independent distribution, Bernoulli, categorical, and any distribution with a correct icdf); parameters stay within their bounds; averaging the likelihood over the cube equals averaging it over the joint prior, so the evidence is the model's evidence. Labels handed to the sampler name the coordinate they stand for.", "quantifier": "all priors of these kinds with valid arguments, all numbers of parameters, all likelihoods", "why_tests_cant": "equality of probability laws and of integrals; cannot be established by sampling", "anchors": ["src/elisa/infer/samplers/util.py:uniform_reparam_transform", "src/elisa/infer/samplers/util.py:UniformReparam", "src/elisa/infer/samplers/util.py:uniform_reparam_model", "src/elisa/infer/samplers/ns/ultranest.py:UltraNestSampler.run", "src/elisa/models/parameter.py:UniformParameter"]}
{"id": "C72", "title": "Bookkeeping of the parallel ensemble samplers", "statement": "Every draw of every walker of every sampler appears exactly once in the posterior, the walkers' chains one after the other; the progress listener ends exactly when every sampler has finished, under every interleaving of their messages, with every bar full; the process start method is left as found; given states are used without warm-up exactly when their number and shape match; parallel samplers get different seeds; every walker starts near the initial point and walkers start at different places; array parameters get unique names in row-major order.", "quantifier": "all numbers of samplers, walkers, steps, all interleavings of messages, all jitters, failures of samplers, all shapes", "why_tests_cant": "interleavings and failure points are unbounded; tests exercise one schedule", "anchors": ["src/elisa/infer/samplers/ensemble/base.py:EnsembleSampler.run", "src/elisa/infer/samplers/ensemble/base.py:EnsembleSampler._progress_listener", "src/elisa/infer/samplers/ensemble/emcee.py:EmceeSampler", "src/elisa/infer/samplers/ensemble/zeus.py:ZeusSampler", "src/elisa/infer/samplers/util.py:ravel_params_names", "src/elisa/infer/fit.py:BayesFit._generate_result_from_numpyro"]}
{"id": "C73", "title": "Profile-likelihood intervals of composite parameters and functions", "statement": "A confidence interval asked for with the profile method is the set of values for which some parameter vector keeps the fit statistic within the requested rise of its minimum: for free parameters (whatever monotone map ties the bounded parameter to the unbounded search coordinate), and for composite parameters and user functions up to the documented tolerance rtol; the tolerance argument is validated and the search for a workable tolerance stays below its cap; the lower end is not above the upper end.", "quantifier": "all fit statistics, parameter spaces, functions, best fits, tolerances, levels", "why_tests_cant": "quantifies over all statistics and functions; a test checks a few fits with one tolerance", "anchors": ["src/elisa/infer/results.py:MLEResult.ci", "src/elisa/infer/results.py:MLEResult._ci_free", "src/elisa/infer/results.py:MLEResult._ci_fn", "src/elisa/infer/results.py:MLEResult._loss_factory", "src/elisa/infer/helper.py:get_helper"]}
{"id": "C74", "title": "Reported fluxes, luminosities and energies belong to the right model and parameters", "statement": "flux, lumin and eiso of a fit report exactly one entry per data set (or per component), and every entry - value, standard error, interval, errors, distribution - is that of the model (component) fitted to that data set and of the parameters the user asked for, in the requested unit; data sets sharing a model get identical entries; working with the logarithm does not change the interval.", "quantifier": "all lists of data sets, all assignments of models, all component names, all parameter overrides, both methods", "why_tests_cant": "all name sets and sharing patterns; collisions only occur for unusual names", "anchors": ["src/elisa/infer/results.py:FitResult.__init__", "src/elisa/infer/results.py:MLEResult._intensity_ci", "src/elisa/infer/results.py:MLEResult._ci_boot", "src/elisa/infer/results.py:MLEResult.flux", "src/elisa/infer/results.py:MLEResult.lumin", "src/elisa/infer/results.py:MLEResult.eiso"]}
{"id": "C75", "title": "Covariance matrices are propagated and selected correctly", "statement": "The covariance of the parameters and of user functions is the first-order propagation of the inverse Hessian (twice the inverse Hessian of the deviance), symmetric and positive semi-definite; the row and column of every requested parameter or function are its own, in the order of the names; from samples it is the unbiased sample covariance for any number of parameters, functions and samples.", "quantifier": "all Jacobians and Hessians, all selections of parameters and functions, all sample sizes and numbers of devices", "why_tests_cant": "linear-algebra identities for every dimension, and index bookkeeping for every selection", "anchors": ["src/elisa/infer/helper.py:get_helper", "src/elisa/infer/results.py:MLEResult.__init__", "src/elisa/infer/results.py:MLEResult.covar", "src/elisa/infer/results.py:PosteriorResult.covar", "src/elisa/infer/results.py:ParamsCovar"]}
{"id": "C76", "title": "Component settings take effect exactly when assigned", "statement": "The band, number of grid points and spacing of the flux-normalising convolutions, the integration method of numerically integrated components, and the abundance and cross-section tables of the absorption components can be assigned at any time: after any history of assignments and evaluations, the settings are those of the last accepted assignments, rejected assignments change nothing, every function obtained uses the settings in force when it was requested (whatever was cached), accepted settings are usable, and any valid band can be selected.", "quantifier": "all histories of assignments (accepted or rejected) and evaluations, all values including NaN and infinities", "why_tests_cant": "cache soundness over all histories; tests exercise single assignments", "anchors": ["src/elisa/models/conv.py:NormConvolution", "src/elisa/models/model.py:NumericalIntegral", "src/elisa/models/mul.py:PhotonAbsorption", "src/elisa/models/mul.py:PhAbs", "src/elisa/models/mul.py:TBAbs", "src/elisa/models/mul.py:WAbs"]}
{"id": "C77", "title": "Repeated bootstraps and predictive checks are independent of history", "statement": "After any sequence of boot() (or ppc()) calls with any sizes, seeds, device numbers and caught exceptions, one more call succeeds exactly when it would have succeeded on a fresh result and leaves exactly the result a fresh one would hold (reuse of earlier simulations is unobservable); a failing call changes nothing; gof is that of the last successful simulation. Every posterior sample used downstream is one joint draw of all parameters, and the rows of a predictive check (replicated parameters, data, fits) belong together.", "quantifier": "all call histories, all seeds including none, all sizes and device numbers, all sets of valid fits", "why_tests_cant": "unbounded call histories and failure points", "anchors": ["src/elisa/infer/results.py:MLEResult.boot", "src/elisa/infer/results.py:PosteriorResult.ppc", "src/elisa/infer/results.py:MLEResult.gof", "src/elisa/infer/results.py:PosteriorResult.gof", "src/elisa/infer/results.py:PosteriorResult._params_dist", "src/elisa/infer/results.py:PPCResult"]}
{"id": "C78", "title": "Plots show the current simulation", "statement": "In any history of simulations and plots, every plotted quantity derived from the bootstrap or predictive check (model bands, signs, residuals and their bands) is computed from the simulation currently stored in the result, although these quantities are cached.", "quantifier": "all histories of simulations and plots, all arguments, all addresses the allocator may hand out", "why_tests_cant": "depends on object lifetimes and address reuse; not reproducible by tests", "anchors": ["src/elisa/plot/data.py:_cache_method_with_check", "src/elisa/plot/data.py:MLEPlotData", "src/elisa/plot/data.py:PosteriorPlotData"]}
{"id": "C79", "title": "Maximum-likelihood fits do not depend on earlier calls", "statement": "MaxLikeFit.mle starts the search from the values given in init (for free parameters; the last value given wins) and from the defaults otherwise; values for names that are not free parameters have no effect; an unknown method is rejected and leaves the fit as it was; the settings (max_steps, throw, verbose) of a call are those used in that call, for every method and after any history of earlier calls (including failed and interrupted ones), so that the outcome is that of a fresh fit object; method 'ns' polishes a sample of highest likelihood.", "quantifier": "all parameter tables, init mappings, histories of mle calls with any settings, failures and interruptions", "why_tests_cant": "unbounded histories and interruption points; the cached optimisers make a retry differ from a first try", "anchors": ["src/elisa/infer/fit.py:MaxLikeFit.mle", "src/elisa/infer/fit.py:MaxLikeFit._optimize_lm", "src/elisa/infer/fit.py:MaxLikeFit._optimize_ns", "src/elisa/infer/fit.py:Fit._check_init", "src/elisa/infer/helper.py:get_helper"]}
{"id": "C80", "title": "BlackJAX NUTS adapts during warm-up only", "statement": "A NUTS run through BlackJAX tunes step size and mass matrix during exactly the first warmup transitions and uses one final tuning afterwards; the mean acceptance it reports is the mean over the transitions of the current phase; resuming from a saved state continues with the tuning of that state and without further adaptation, whatever warmup is asked for.", "quantifier": "all kernels, targets, seeds, warm-up lengths, numbers of transitions and resumptions", "why_tests_cant": "statement over all run lengths and all resumptions", "anchors": ["src/elisa/infer/samplers/blackjax/nuts.py:BlackJAXNUTS", "src/elisa/infer/fit.py:BayesFit.blackjax_nuts"]}
{"id": "C81", "title": "Chains start, resume and are recorded as asked", "statement": "A saved state is accepted by a sampler exactly if the same kind of sampler left it; otherwise the call is rejected. A chain starts from init if given, from the init_strategy if only that is given, and from the defaults otherwise. Whatever the thinning, each chain has exactly steps draws, the j-th after (j+1)*thinning transitions. The sampler statistics requested are all recorded.", "quantifier": "all kinds of samplers and states, all init mappings, all step numbers and thinnings", "why_tests_cant": "all combinations of samplers, states and settings", "anchors": ["src/elisa/infer/fit.py:BayesFit._run_numpyro_mcmc", "src/elisa/infer/fit.py:BayesFit.nuts", "src/elisa/infer/fit.py:BayesFit._generate_result_from_numpyro"]}
{"id": "C82", "title": "Credible intervals have the stated content", "statement": "PosteriorResult.ci gives, with hdi=False, an interval with equal tails around the median containing at least the stated share of the draws (up to one draw), growing with the level; with hdi=True, the shortest interval between draws with more than the stated share. Both are independent of the order of draws and of their division into chains, and follow a change of unit. The errors have the signs of lower and upper errors; the same holds for user functions and fluxes.", "quantifier": "all posteriors, levels, numbers of chains, functions", "why_tests_cant": "optimality over all competing intervals and content for all samples", "anchors": ["src/elisa/infer/results.py:PosteriorResult.ci", "src/elisa/infer/results.py:PosteriorResult._ci_fn", "src/elisa/infer/results.py:PosteriorResult.flux"]}
{"id": "C83", "title": "LOO-PIT values are leave-one-out probabilities", "statement": "The pair of LOO-PIT values of a channel lies in [0, 1], is ordered, and brackets: the upper value is the leave-one-out predictive probability of a replicate not above the datum and the lower one that of a replicate strictly below it (the next smaller attainable datum); leave-one-out expectations are weighted means for quantities of any sign; every data set gets the values of its own channels.", "quantifier": "all data, weights, replicate sets, statistics and background ratios", "why_tests_cant": "identities for every weight vector and every replicate set", "anchors": ["src/elisa/infer/results.py:PosteriorResult._loo_pit", "src/elisa/infer/results.py:PosteriorResult._loo_expectation"]}
{"id": "C84", "title": "Stored posteriors describe the right data sets and parameters", "statement": "In the result of a Bayesian fit, log_likelihood['channels'] and ['total'] (which LOO and WAIC read) are the log-likelihoods of all channels in order and their sum; the entry named like a data set, and those with _Non, _Noff and _total appended, are that data set's; the deviance table has exactly one row per data set plus the total; the effective sample sizes are those of the parameters; the relative efficiency is the effective sample size per draw; the Pareto table counts every channel once, in the range printed.", "quantifier": "all lists of data sets with distinct names, with and without background, all parameters, all samplers", "why_tests_cant": "holds or fails depending on names; quantifies over all name sets", "anchors": ["src/elisa/infer/fit.py:BayesFit._generate_results", "src/elisa/infer/fit.py:BayesFit._get_ess", "src/elisa/infer/fit.py:BayesFit.nautilus", "src/elisa/infer/fit.py:BayesFit.ultranest", "src/elisa/infer/fit.py:BayesFit.jaxns", "src/elisa/infer/results.py:PosteriorResult.deviance", "src/elisa/infer/results.py:PosteriorResult.ess", "src/elisa/infer/results.py:PosteriorResult.reff", "src/elisa/infer/helper.py:get_helper"]}
{"id": "C85", "title": "The resolution of a response is its full width at half maximum", "statement": "ResponseData.fwhm of a photon energy is the distance in channels between the nearest channels on the two sides of the (first) peak where the response is at or below half its maximum; twice the distance to the one side if the response falls to half only at one end of the channels; -1 if at neither; 1 if there is no response. It does not depend on the unit of the response. ResponseData.channel_fwhm gives each channel the value of the photon bin its mid energy is in, or the nearest bin. Optimal binning uses narrower bins where there are more counts, whatever the response.", "quantifier": "all response matrices, photon grids and channel ranges, all counts", "why_tests_cant": "statement over all rows of any length", "anchors": ["src/elisa/data/base.py:ResponseData.fwhm", "src/elisa/data/base.py:ResponseData.channel_fwhm", "src/elisa/data/grouping.py:_calc_optimal_binning"]}
{"id": "C86", "title": "Simulated observations follow the model", "statement": "simulate returns an observation whose background counts are drawn first with the given means and whose source counts are then drawn with mean folded model x exposure x area scale + (source/background scaling) x background mean, with the given energies, response, quality and grouping; grouping and filtering such an observation in any way, the expected counts of a group are what a fit of the same model expects there; simulate_from_data reproduces the response, good channels, scales, kind of counts, grouping and energy ranges of the data, with the exposures asked for, and succeeds for every legal observation.", "quantifier": "every model, parameter vector, response, exposures, scales, background, quality and grouping, every later grouping and filter, every generator state", "why_tests_cant": "The space of responses, scales, flags and generator states is infinite, and the claim is about expected values rather than about one draw.", "anchors": ["src/elisa/models/model.py:CompiledModel.simulate", "src/elisa/models/model.py:CompiledModel.simulate_from_data"]}
{"id": "C87", "title": "A parameter slot holds what was assigned to it", "statement": "Assigning a value to a parameter of a component (component.name = value or component[name] = value) either raises and changes nothing, or leaves the slot holding one parameter and every other slot and every other parameter as it was. A parameter object is shared as it is; None restores the declaration; a number within the declared bounds fixes the parameter at exactly this number; a mapping or a sequence of length 1, 3 or 4 makes a parameter with exactly the default, bounds, scale and flag asked for (a free default on a bound is moved inside by at most 1e-10 of the width); accepted exactly when min < max, min <= default <= max, and min > 0 on a logarithmic scale. A flag left out means the declared one, labels of other slots do not change, and misspelt keys are errors.", "quantifier": "every history of component creations, deletions, parameter creations and assignments, every declared configuration and every value assigned, NaN and infinities included, every rounding", "why_tests_cant": "All histories, all values and all roundings.", "anchors": ["src/elisa/models/model.py:_param_setter", "src/elisa/models/model.py:Component", "src/elisa/models/model.py:ParamConfig"]}
{"id": "C88", "title": "Calling a component class fills its slots as the signature says", "statement": "Calling a component class raises TypeError exactly when the arguments do not fit its signature (extra arguments, declared parameters in declared order, latex, extra keywords); otherwise it succeeds exactly when every declared parameter receives an acceptable value by position or keyword, or none, and every slot of the new component then holds what its parameter received, no other component or parameter being changed. A call that raises has no effect. Components can be subclassed.", "quantifier": "every component class, every list of positional and keyword arguments, every reachable state of other components and parameters", "why_tests_cant": "All signatures, all calls and all histories before them.", "anchors": ["src/elisa/models/model.py:ComponentMeta", "src/elisa/models/model.py:Component.__init__"]}
{"id": "C89", "title": "The value and errors shown are the ones computed", "statement": "The titles of a corner plot show the median and the errors of each parameter: the number shown, times the power of ten shown, differs from the value by at most half a unit of the last digit of the precision asked for; each error likewise, with its own sign, and an error that is not zero is never shown as zero. Every value has a title, zero included.", "quantifier": "every value, interval, precision and choice of thresholds, every rounding to nearest", "why_tests_cant": "All numbers and precisions; carries of the significand into the next decade are rare.", "anchors": ["src/elisa/util/misc.py:report_interval", "src/elisa/plot/misc.py:plot_corner"]}
{"id": "C90", "title": "A batch of parameters gives the batch of results", "statement": "CompiledModel.eval (and ne, ene, eene, ce, flux) on an array of parameters of shape (..., number of parameters), or on a mapping of names to arrays of one shape, gives results of the leading shape whose element idx is the result for the parameters at idx; arrays with another last axis, mappings without any known name and mappings of known names to arrays of different shapes are refused. ce is the model folded through the response per channel width, in total and by component, and is refused for models that are not additive.", "quantifier": "every model, every shape and number of dimensions, every mapping, every response and grid", "why_tests_cant": "All shapes and all models; nested mapping over any number of axes.", "anchors": ["src/elisa/models/model.py:CompiledModel._prepare_eval", "src/elisa/models/model.py:CompiledModel.eval", "src/elisa/models/model.py:CompiledModel.ce"]}
{"id": "C91", "title": "A component of XSPEC gets the values of its own parameters and keeps its energy grid", "statement": "An XSPEC component passes the value of every slot to XSPEC in XSPEC order (an additive one multiplies by its normalisation); its slots are usable as attribute names and carry the default, bounds and frozen state XSPEC declares. The derivative method can be one of two and is the one used. A convolution component is evaluated on the energy grid of the data extended to the configured range by the configured number of bins, refuses energies outside that range, and returns exactly one value for each bin of the data, of that bin.", "quantifier": "every XSPEC model description, parameter values, energy grid, extension and convolution kernel", "why_tests_cant": "All model descriptions, grids and extensions.", "anchors": ["src/elisa/models/xs.py:XspecAdditive", "src/elisa/models/xs.py:XspecConvolvedModel", "src/elisa/models/xs.py:_generate_xspec_models"]}
{"id": "C92", "title": "Spectra and bands are drawn bin by bin", "statement": "A plotted spectrum shows every bin once, with its value from its left to its right edge and nothing else; lines are broken exactly where two bins do not touch; bands are drawn in the same way. The unfolded spectrum shows the photon bins inside the noticed energies. Limits of a logarithmic axis are positive, contain the maximum and span at most the configured number of decades.", "quantifier": "every list of bins in any order, every number of bands, every photon grid and noticed range, every range of values", "why_tests_cant": "All arrangements of gaps in the channels.", "anchors": ["src/elisa/plot/plotter.py:_plot_step", "src/elisa/plot/plotter.py:_plot_ribbon", "src/elisa/plot/plotter.py:_adjust_log_range", "src/elisa/plot/data.py:PlotData.photon_egrid"]}
{"id": "C93", "title": "Bands hold the stated share and marks are outside the widest band", "statement": "A band of level cl holds the stated share of the simulated values of its channel (symmetric if signs are ignored), bands are nested, levels may be given in any order; a residual is marked exactly when it is outside the band of the highest level; without simulations bands are those of a standard normal variable. The curve and band of an unfolded model use the parameters given in place of the estimates, and the curve of a posterior lies in its band.", "quantifier": "every sample, every number of channels and levels, every residual, every replacement of parameters", "why_tests_cant": "All samples and levels; probability statements.", "anchors": ["src/elisa/plot/data.py:MLEPlotData.residuals_ci", "src/elisa/plot/data.py:MLEPlotData.unfolded_model", "src/elisa/plot/data.py:PosteriorPlotData.unfolded_model", "src/elisa/plot/plotter.py:Plotter.plot_residuals", "src/elisa/plot/plotter.py:PlotConfig.cl"]}
{"id": "C94", "title": "Diagnostic plots show what their axes say", "statement": "A Q-Q plot shows every residual once against the theoretical quantile of its rank; its band holds the k-th smallest residual with the stated probability (or the stated share of simulations). The PIT-ECDF plot shows at each rank the share of transforms that do not exceed it, and for uniform transforms it is in the band with at least the stated probability. Detrending changes neither. The goodness-of-fit curve is the share of simulations that reach a deviance and the text is the p-value. The panel total shows all data sets.", "quantifier": "every residuals, transforms, simulations and number of data sets; every probability level", "why_tests_cant": "Probabilities over all outcomes, all sample sizes.", "anchors": ["src/elisa/plot/plotter.py:_get_qq", "src/elisa/plot/plotter.py:_get_pit_ecdf", "src/elisa/plot/plotter.py:Plotter.plot_gof", "src/elisa/plot/plotter.py:Plotter.plot_qq"]}
{"id": "C95", "title": "The plots asked for are the plots shown", "statement": "A request is read as words separated by white space; a request with an unsupported word is refused; otherwise each figure and each panel of the spectral figure is made exactly when asked for, labelled as asked, with the residuals of the type asked for; plots that need simulations are refused without them. Fluxes in Jy are converted with the right factor.", "quantifier": "every request string, both kinds of result, with and without simulations", "why_tests_cant": "All request strings and combinations of words.", "anchors": ["src/elisa/plot/plotter.py:MLEResultPlotter.__call__", "src/elisa/plot/plotter.py:PosteriorResultPlotter.__call__", "src/elisa/plot/plotter.py:Plotter.plot_spec"]}
{"id": "C96", "title": "A Data object is assembled from the files asked for", "statement": "Data(...) reads the spectrum, background, response and ancillary files given as arguments, and the files named in the header of the spectrum for those not given; file{n} means row n of a type II spectrum file or matrix n of a response file. Row n of a type II file gives the same data as a type I file with this row alone. Missing names, missing responses, missing files and rows that do not exist are refused; otherwise the object is created, with the spectrum selected and the name given.", "quantifier": "every content of the file system, every combination of arguments and header entries", "why_tests_cant": "All file contents, paths and combinations of arguments and headers.", "anchors": ["src/elisa/data/ogip.py:Data", "src/elisa/data/ogip.py:Spectrum", "src/elisa/data/ogip.py:Response"]}
{"id": "C97", "title": "The statistic of a fit follows from the files", "statement": "For data sets loaded from files, whatever calls of set_erange, set_grouping and group were made on them, and every statistic the fit accepts: the statistic reported for a model is the sum, over the groups of channels in use, of minus twice the log of a likelihood ratio, that of the counts, variances, exposures, scales, quality flags, redistribution matrix and effective area stored in these files, and of the photons of the model in the energy bins of the response.", "quantifier": "every content of the files, every combination of arguments and headers, every history of calls, every statistic and every model flux in the numerical range, any number of data sets", "why_tests_cant": "The property spans reading, grouping, folding and the likelihood, for all files and all histories of calls.", "anchors": ["src/elisa/data/ogip.py:Data", "src/elisa/data/base.py:ObservationData", "src/elisa/infer/fit.py:Fit", "src/elisa/infer/likelihood.py"]}
{"id": "C98", "title": "Residuals of a posterior are leave-one-out averages", "statement": "The deviance residual of a channel of a posterior fit has the leave-one-out mean of the deviances of the draws as its square, and the sign of the net counts minus the leave-one-out mean of the model; the size of its Pearson residual is the leave-one-out mean of the sizes for the draws; both equal the residuals of the model when all draws agree. Quantile residuals are finite, and flagged as limits exactly when no or every prediction lies below the data. Residuals of the maximum likelihood model are returned when asked for.", "quantifier": "every statistic, data set, number of draws, importance weights and fluxes in the numerical range, every random number", "why_tests_cant": "All data sets, draws and weights.", "anchors": ["src/elisa/plot/data.py:PosteriorPlotData", "src/elisa/infer/results.py:PosteriorResult._loo_expectation"]}
{"id": "C99", "title": "Plots show the simulations in force", "statement": "After new bootstrap or posterior predictive simulations were run, every quantity of a plot that depends on them is computed from the new simulations, not from earlier ones.", "quantifier": "every history of simulation runs and plots, every assignment of memory addresses Python may make", "why_tests_cant": "It depends on the history of runs and plots and on the reuse of memory addresses.", "anchors": ["src/elisa/plot/data.py:_cache_method_with_check", "src/elisa/plot/data.py:PlotData.__init__", "src/elisa/plot/data.py:MLEPlotData", "src/elisa/plot/data.py:PosteriorPlotData"]}
{"id": "C100", "title": "Plot settings are always usable", "statement": "The settings of a plot accept exactly the values the documentation allows, and hold valid settings after any history of assignments, accepted or refused. Reading the colours of a plotter gives the colours last chosen for all data sets, unless they were reset, and otherwise one colour per data set from the palette in the settings; markers differ between data sets; the total number of data is the sum over data sets.", "quantifier": "every argument list, every history of assignments, palette changes, colour choices, resets and reads, every number and naming of data sets", "why_tests_cant": "The property is about all histories of assignments and about all argument values, including NaN and infinities.", "anchors": ["src/elisa/plot/plotter.py:PlotConfig", "src/elisa/plot/plotter.py:Plotter.set_colors", "src/elisa/plot/plotter.py:Plotter.colors", "src/elisa/plot/plotter.py:Plotter.ndata", "src/elisa/plot/util.py:get_colors", "src/elisa/plot/util.py:get_markers"]}
{"id": "C101", "title": "Components of a model cannot be lost, replaced or mistyped", "statement": "After a model is built, every component is found under its name (model.Name and model[\"Name\"]) whatever is assigned or deleted; assigning to a component or to a name that does not exist raises AttributeError, so does every deletion; no attribute appears or disappears. The same holds for components (a misspelt parameter is refused, an accepted assignment changes only the attribute named), and compiled models never change. A class with a tuple of parameter declarations is accepted exactly if the declarations and static methods are legal.", "quantifier": "every history of assignments and deletions of attributes, every class body", "why_tests_cant": "It must hold after every sequence of assignments and deletions.", "anchors": ["src/elisa/models/model.py:Model.__setattr__", "src/elisa/models/model.py:Model.__delattr__", "src/elisa/models/model.py:Model.__getitem__", "src/elisa/models/model.py:CompiledModel.__setattr__", "src/elisa/models/model.py:Component.__setattr__", "src/elisa/models/model.py:ComponentMeta.__new__"]}
{"id": "C102", "title": "Saved results are loaded as they were saved", "statement": "After any history of saves, complete or interrupted at any byte, loading a file with the algorithm of the last save gives the result of that save if it was complete; with another algorithm, or if the file is cut off, loading raises or gives that same result, never an older or different one. An unsupported algorithm raises ValueError and changes no file. An interrupted save leaves the result saved before.", "quantifier": "every history of saves to any paths with any algorithms, every crash point within a save", "why_tests_cant": "It ranges over all crash points and histories.", "anchors": ["src/elisa/infer/results.py:FitResult.save", "src/elisa/infer/results.py:FitResult.load"]}
{"id": "C103", "title": "Posterior summaries", "statement": "The mean, the standard deviation and the best draw of a posterior are those of all draws: the mean lies within the draws and does not depend on how they are split over chains, the standard deviation is zero exactly if all draws agree and both follow a change of unit, the deviance reported for the best fit is that of the parameters reported and not larger than that of any draw, and the number of divergences is available for every sampler. A function of the parameters that returns a parameter has the summary of that parameter.", "quantifier": "every number of chains and draws, every draw values, every sampler output", "why_tests_cant": "It ranges over all posteriors.", "anchors": ["src/elisa/infer/results.py:PosteriorResult.mean", "src/elisa/infer/results.py:PosteriorResult.std", "src/elisa/infer/results.py:PosteriorResult.deviance", "src/elisa/infer/results.py:PosteriorResult.divergence", "src/elisa/infer/results.py:PosteriorResult._mle"]}
{"id": "C104", "title": "A Gaussian line carries its photon flux", "statement": "The Gaussian line is the documented profile: its photon flux over all energies is K, it peaks at the line energy and is symmetric. The values of the bins of a grid add up to the flux of the line in the range of the grid, whatever the width of the line. The thermal synchrotron component is positive, decreases with energy, is K at zero energy and K/e at Ec.", "quantifier": "every line energy, width, flux and energy grid", "why_tests_cant": "It is about integrals over all energies and all grids, including the limit of narrow lines.", "anchors": ["src/elisa/models/add.py:Gauss.continuum", "src/elisa/models/add.py:OTTS.continuum", "src/elisa/models/model.py:NumericalIntegral"]}
{"id": "C105", "title": "Process-wide settings survive sampling runs", "statement": "After any history of sampling runs, bootstraps and predictive checks, whether they raised or not, the multiprocessing start method, the Pool class of nautilus, the random state of NumPy and the JAX flag for merging are what they were before; a run of UltraNest does not depend on the random state of the process.", "quantifier": "every history of runs with every outcome, every prior state of the process", "why_tests_cant": "It ranges over all histories and failure points.", "anchors": ["src/elisa/infer/samplers/ns/ultranest.py", "src/elisa/infer/samplers/ns/nautilus.py:NautilusSampler.__init__", "src/elisa/infer/samplers/ensemble/base.py:EnsembleSampler.run", "src/elisa/util/config.py:jax_pmap_shmap_merge"]}
{"id": "C106", "title": "Evidence and effective sample size of nested sampling", "statement": "The result of a nested sampling run reports the draws, the effective sample size for every parameter, and the evidence with its error that the sampler found, whether the run is new or read from the log of an earlier run; a run that did not reach its goal raises.", "quantifier": "every sampler, every outcome of a run, every list of parameters", "why_tests_cant": "It ranges over all sampler outputs.", "anchors": ["src/elisa/infer/fit.py:BayesFit.jaxns", "src/elisa/infer/fit.py:BayesFit.nautilus", "src/elisa/infer/fit.py:BayesFit.ultranest", "src/elisa/infer/results.py:PosteriorResult.lnZ"]}
{"id": "C107", "title": "The plot of the effective area shows the effective area", "statement": "The effective area of a photon bin is the response summed over the channels of good quality (zero if negative), a wrong number of flags raises ValueError, the curve shows over every photon bin the area of that bin, and exactly the photon bins outside the noticed ranges are hatched.", "quantifier": "every response matrix, photon grid, flags and list of noticed ranges in order", "why_tests_cant": "It ranges over all responses, grids and ranges.", "anchors": ["src/elisa/data/base.py:ResponseData.plot_effective_area"]}
{"id": "C108", "title": "The plot of the response matrix shows every channel at its energy", "statement": "Whatever gaps there are between the channels, or arise by leaving out bad channels, every channel is drawn over its own energy range with its own column of the response and gaps are left empty; a wrong number of flags raises ValueError; exactly the channels outside the noticed ranges are hatched.", "quantifier": "every list of channels with any gaps, every flags, every noticed ranges in order", "why_tests_cant": "It ranges over all positions and numbers of gaps.", "anchors": ["src/elisa/data/base.py:ResponseData.plot_matrix"]}
{"id": "C109", "title": "The plot of a spectrum shows the spectrum", "statement": "Every noticed group is drawn as a bar over its own energy range with its rate and its error: source, background and net counts over exposure and bin width, with the background scaled to the source; the significance drawn is zero when there is no excess, positive when there is one and finite.", "quantifier": "every observation, with and without background, every grouping and range, every counts and errors", "why_tests_cant": "It ranges over all spectra, groupings and backgrounds.", "anchors": ["src/elisa/data/base.py:ObservationData.plot_spec", "src/elisa/data/grouping.py:significance_lima", "src/elisa/data/grouping.py:significance_gv"]}
{"id": "C110", "title": "The displayed name of a model denotes the model", "statement": "Read with ordinary precedence, the name of a model can be read in exactly one way and denotes the model the user built; the LaTeX label shows the same expression; turning component ids into names renames every component and touches nothing else.", "quantifier": "every model however nested, every component names, every ids and every order of replacement", "why_tests_cant": "It ranges over all expression trees, names and ids.", "anchors": ["src/elisa/models/model.py:CompositeModel.__init__", "src/elisa/models/model.py:ConvolvedModel.__init__", "src/elisa/models/model.py:Model._id_to_label"]}
{"id": "C111", "title": "The posterior of a flux is the flux of the posterior", "statement": "flux, lumin and eiso of a posterior report the statistics of the fluxes of the draws in the unit asked for: mean, standard deviation, median, equal-tailed interval, errors relative to the median with the right signs; values given by the user replace those of the draws; the fluxes of the components of a model add up to the flux of the model.", "quantifier": "every posterior sample, level, unit, values given by the user, every model with any number of components", "why_tests_cant": "It ranges over all samples, levels and models.", "anchors": ["src/elisa/infer/results.py:PosteriorResult._intensity_ci", "src/elisa/infer/results.py:PosteriorResult._ci_fn", "src/elisa/infer/results.py:PosteriorResult.flux"]}
{"id": "C112", "title": "The label of a unit shows the unit", "statement": "In the label of a unit one reads exactly the bases of the unit, each once with its own power, after its scale; no unit gives no label and an invalid one raises or gives no label; two parameters share a label in a plot only if component, parameter and unit are labelled the same.", "quantifier": "every unit with any bases, powers and scale, every order of the bases in the text, every component and parameter labels", "why_tests_cant": "It ranges over all units and labels.", "anchors": ["src/elisa/util/misc.py:get_unit_latex", "src/elisa/plot/plotter.py:Plotter.params_labels"]}
{"id": "C113", "title": "Quantile residuals of Poisson data are standard normal", "statement": "For Poisson data and the true model the quantile residuals with noise are standard normal variates, whatever the mean; they are finite also where a tail probability underflows to zero; with keep_sign they have the sign of data minus model and the same magnitude; without noise the residual is the normal quantile of the probability of at most the observed counts.", "quantifier": "every positive mean, every count, every uniform variate, every value of the residual, any computed tail probabilities below one", "why_tests_cant": "A statement about a distribution over infinitely many counts and continuous noise, for every mean.", "anchors": ["src/elisa/plot/residuals.py:quantile_residuals_poisson", "src/elisa/plot/residuals.py:pit_poisson", "src/elisa/plot/data.py:MLEPlotData.quantile_residuals_mle"]}
{"id": "C114", "title": "Components without a closed integral have the documented shape", "statement": "CutoffPL, Compt, OTTB and BentPL are positive, have the documented normalisation and local slope at every energy (which fixes the function), E^2 N(E) of the cut-off power law peaks at (2-alpha)Ec, and Edge, ExpAbs, ExpFac and HighECut have the documented optical depth below and above their thresholds.", "quantifier": "every energy and every parameter value", "why_tests_cant": "It ranges over all real energies and parameters.", "anchors": ["src/elisa/models/add.py:CutoffPL", "src/elisa/models/add.py:Compt", "src/elisa/models/add.py:OTTB", "src/elisa/models/add.py:BentPL", "src/elisa/models/mul.py:Edge", "src/elisa/models/mul.py:ExpAbs", "src/elisa/models/mul.py:ExpFac", "src/elisa/models/mul.py:HighECut"]}
{"id": "C115", "title": "Names of data sets and parameters keep their values apart", "statement": "Whatever the names given to data sets and parameters, the result of a fit, the counts and the simulated data reported under a name are those of the data set or parameter of that name, and a simulated data set is fitted with its own counts.", "quantifier": "every set of data-set names and parameter names, every statistic of each data set, every order of evaluation, all values", "why_tests_cant": "It ranges over all combinations of names; the clashes need names the author did not think of.", "anchors": ["src/elisa/infer/helper.py:get_helper", "src/elisa/infer/likelihood.py:chi2", "src/elisa/infer/likelihood.py:pgstat", "src/elisa/infer/likelihood.py:wstat"]}
{"id": "C116", "title": "N(E), E N(E), E^2 N(E) and band fluxes of a model are what their names say", "statement": "In each bin ne reports the continuum at some energy of the bin, ene and eene that value times E and E^2 (in erg) with E inside the bin; E^2 N(E) of an index-2 power law is exactly flat; the spectra of components add up to that of the model; the photon flux is the sum of the bins and the energy flux lies between emin and emax times it; non-additive models and absent components are refused.", "quantifier": "every continuous continuum, grid, bin, band, number of grid points and set of components", "why_tests_cant": "It ranges over all continua and grids.", "anchors": ["src/elisa/models/model.py:CompiledModel.ne", "src/elisa/models/model.py:CompiledModel.ene", "src/elisa/models/model.py:CompiledModel.eene", "src/elisa/models/model.py:CompiledModel.flux"]}
{"id": "C117", "title": "Runs of the ensemble samplers are reproducible, can be continued and are thinned as asked", "statement": "With the same seed an ensemble run gives the same draws in every process; a run continued from the states it returned is the uninterrupted run draw for draw; warm-up steps are discarded and every thinning-th step is stored; with ignore_nan a NaN log-probability is below all others; the directions of the zeus move are along lines through two different walkers, all ordered pairs being equally likely, whatever numbers of walkers were used before.", "quantifier": "every number of samplers, warm-up steps, draws and thinning, every library step function, every process, every history of moves", "why_tests_cant": "It ranges over all chain lengths, processes and histories.", "anchors": ["src/elisa/infer/samplers/ensemble/emcee.py:EmceeSampler", "src/elisa/infer/samplers/ensemble/zeus.py:ZeusSampler", "src/elisa/infer/samplers/ensemble/zeus.py:DifferentialMove", "src/elisa/infer/samplers/ensemble/base.py:EnsembleSampler.run", "src/elisa/infer/fit.py:BayesFit.emcee", "src/elisa/infer/fit.py:BayesFit.zeus"]}
{"id": "C118", "title": "WAIC is the widely applicable information criterion of all channels", "statement": "PosteriorResult.waic is the sum over the channels of all data sets of -2 (log mean likelihood - variance of the log-likelihood), over the draws of all chains; it is the sum of the criteria of the data sets; it does not depend on the order of draws or chains; its effective number of parameters is not negative and is zero when all draws agree, in which case the criterion is the deviance; it is at most the mean deviance plus twice the effective number of parameters; terms of the log-likelihood which do not depend on the parameters shift it by the same constant for every model; a warning is given exactly when a variance exceeds 0.4.", "quantifier": "every number of chains, draws, data sets (whatever their names) and channels, every log-likelihood values", "why_tests_cant": "It ranges over all posterior samples; a test checks one sample.", "anchors": ["src/elisa/infer/results.py:PosteriorResult.waic", "src/elisa/infer/fit.py:BayesFit._generate_results", "src/elisa/infer/helper.py:get_helper"]}
{"id": "C119", "title": "Fit statistics are convex in the source counts and in the amplitudes of the components", "statement": "With any statistic (the profiled backgrounds of wstat and pgstat included) the deviance of a channel is a convex function of the expected source counts, and grows strictly on either side of the net counts. The total fit statistic of any number of data sets is a convex function of the amplitudes of the components of the model, so that a local minimum in the amplitudes is a global one.", "quantifier": "every statistic, all data the statistic can be used on, all source counts, every number of data sets, channels and components, all amplitudes for which the code clips nothing", "why_tests_cant": "It ranges over a continuum of data and amplitudes.", "anchors": ["src/elisa/infer/likelihood.py:wstat_background", "src/elisa/infer/likelihood.py:pgstat_background", "src/elisa/infer/likelihood.py:wstat", "src/elisa/infer/likelihood.py:pgstat", "src/elisa/infer/likelihood.py:cstat", "src/elisa/infer/likelihood.py:chi2", "src/elisa/infer/helper.py:get_helper"]}
{"id": "C120", "title": "At a best fit the expected counts add up to the observed counts", "statement": "When data sets are fitted with cstat or wstat and no common rescaling of the component amplitudes improves the fit, the counts the fit expects, summed over all channels of all data sets (the profiled background regions included with wstat), equal the counts observed there.", "quantifier": "every number of data sets, each with cstat or wstat, all data the statistic can be used on, all amplitudes for which the code clips nothing near the best fit", "why_tests_cant": "It ranges over a continuum of data and amplitudes; a test can only check one fit to the precision of the optimiser.", "anchors": ["src/elisa/infer/likelihood.py:cstat", "src/elisa/infer/likelihood.py:wstat", "src/elisa/infer/likelihood.py:wstat_background", "src/elisa/infer/helper.py:get_helper"]}
{"id": "C121", "title": "Error bars of on/off counts are likelihood-ratio intervals", "statement": "The lower and upper ends wstat_errors reports for a channel with counts are exactly the ends of the set of non-negative source counts which, for some background, are no more than exp(-delta/2) times less likely than the most likely ones. delta is 1 for positive net counts; otherwise the channel is flagged, its lower end is zero, and delta is the level a squared standard normal variable stays below with the probability given for upper limits (get_delta, the square of get_sigma).", "quantifier": "all on counts (whole numbers), off counts, exposure ratios and confidence levels, every root finder which finds an existing root from a finite starting value", "why_tests_cant": "It ranges over a continuum of counts and ratios, and says which set an interval is, not what it is for one example.", "anchors": ["src/elisa/plot/errorbars.py:wstat_errors", "src/elisa/plot/errorbars.py:wstat", "src/elisa/plot/errorbars.py:get_delta", "src/elisa/plot/errorbars.py:get_sigma"]}
{"id": "C122", "title": "Trimming empty rows off a response keeps the folded counts", "statement": "Response._drop_zeros removes the energy bins without response from a matrix together with their energies: the energies and rows it returns belong together, and every spectrum folded with them gives the counts it gave before.", "quantifier": "all energy grids and matrices, every position of the empty rows, all spectra and channels", "why_tests_cant": "It ranges over all matrices and all patterns of empty rows.", "anchors": ["src/elisa/data/ogip.py:Response._drop_zeros"]}
{"id": "C123", "title": "Coarser grouping never increases the fit statistic at given parameters", "statement": "When the same observation is fitted in two groupings with the same energy ranges, and every group boundary of the second is one of the first, then for any model fluxes the total statistic in the second grouping is not larger than in the first: merging channels can only lose discrepancies between data and model.", "quantifier": "all observations, energy ranges, pairs of groupings one of which refines the other, every statistic and all fluxes for which the code clips nothing", "why_tests_cant": "It ranges over all pairs of groupings of all spectra and a continuum of fluxes.", "anchors": ["src/elisa/data/base.py:ObservationData.set_grouping", "src/elisa/data/base.py:ObservationData.get_fixed_data", "src/elisa/infer/likelihood.py:chi2", "src/elisa/infer/likelihood.py:cstat", "src/elisa/infer/likelihood.py:wstat", "src/elisa/infer/likelihood.py:pgstat", "src/elisa/infer/likelihood.py:pstat"]}
{"id": "C124", "title": "The fit statistic has the gradient its residuals say", "statement": "Where the fluxes depend differentiably on a parameter, so does the total statistic of a fit of any number of data sets with any statistics, the profiled backgrounds of wstat and pgstat included. Its derivative is the sum over all channels of 2 (expected - observed) / expected counts (for chi2: / variance), as recorded by the fit, times the derivative of the folded source counts. At a best fit away from bounds the sum is zero, for every parameter and for the amplitude of every component.", "quantifier": "every number of data sets, every statistic, all data it can be used on, all differentiable dependences of the fluxes on a parameter for which the code clips nothing nearby", "why_tests_cant": "It ranges over a continuum of data and models; gradient-based optimisers and samplers rely on it at every point, also where the profiled background switches between branches of its formula.", "anchors": ["src/elisa/infer/likelihood.py:chi2", "src/elisa/infer/likelihood.py:cstat", "src/elisa/infer/likelihood.py:pstat", "src/elisa/infer/likelihood.py:pgstat", "src/elisa/infer/likelihood.py:wstat", "src/elisa/infer/likelihood.py:wstat_background", "src/elisa/infer/likelihood.py:pgstat_background", "src/elisa/infer/helper.py:get_helper"]}
{"id": "C125", "title": "Components of a fit have distinct names that tell their data sets", "statement": "Whatever suffix configuration has been set, every component of a fit has its own name; the name of a component that is not used for all data sets lists exactly the data sets it is used for. A configuration that cannot be used is refused and leaves the one in force.", "quantifier": "every sequence of suffix configurations, accepted or refused, every list of data set names, every list of components and every assignment of components to data sets", "why_tests_cant": "Collisions need particular names or templates: a handful of configurations in a test do not show that no accepted one makes two parameters share a name.", "anchors": ["src/elisa/util/misc.py:set_suffix_config", "src/elisa/util/misc.py:add_suffix", "src/elisa/util/misc.py:build_namespace", "src/elisa/infer/fit.py:Fit.__init__"]}
{"id": "C126", "title": "The statistics agree where their assumptions agree", "statement": "For the same data and model: treating the background as exactly known (pstat) never gives a smaller statistic than profiling it (pgstat, wstat), and the difference is bounded by the variance of the background scaled to the source region times the squared relative misfit, so it vanishes as the background gets better known. Larger background errors never increase pgstat. With no background counts pstat is cstat. Without background chi2 with errors sqrt(n) and cstat differ by a term that vanishes with the counts at a given number of sigma.", "quantifier": "all data sets the statistics can be used on, all channels, all source models for which nothing is clipped", "why_tests_cant": "The comparison is an inequality over a continuum of counts, ratios, errors and models; a test evaluates single points.", "anchors": ["src/elisa/infer/likelihood.py:chi2", "src/elisa/infer/likelihood.py:cstat", "src/elisa/infer/likelihood.py:pstat", "src/elisa/infer/likelihood.py:pgstat", "src/elisa/infer/likelihood.py:wstat"]}
{"id": "C127", "title": "Best-fit amplitudes are unique where the data can tell the components apart", "statement": "Two best fits of the amplitudes of the components predict the same source counts in every informative channel (any channel for chi2, channels with counts for the Poisson statistics, with counts in both regions for wstat). If no combination of components is invisible in these channels, the best-fit amplitudes are unique.", "quantifier": "every number of data sets, every statistic, all data it can be used on, all components and all amplitudes for which nothing is clipped", "why_tests_cant": "Uniqueness is a statement about all pairs of amplitudes; an optimiser run finds one.", "anchors": ["src/elisa/infer/likelihood.py:chi2", "src/elisa/infer/likelihood.py:cstat", "src/elisa/infer/likelihood.py:pstat", "src/elisa/infer/likelihood.py:pgstat", "src/elisa/infer/likelihood.py:wstat", "src/elisa/infer/helper.py:get_helper", "src/elisa/infer/fit.py:MaxLikeFit.mle"]}
{"id": "C128", "title": "The tables shown for a fit and its result agree with the result", "statement": "The tables a user reads from a fit or a maximum likelihood result say what the result holds: each data set has one row with its own model, statistic, value and number of channels; the totals, degrees of freedom and information criteria are those of the whole fit; each parameter has one row with its own value and error; values are shown to the stated precision, so the rows add up to the total up to rounding. A maximum likelihood fit lists bounds, a Bayesian fit priors.", "quantifier": "all lists of data sets with distinct names, all values of the statistics, all parameter lists, values and errors, all formatting functions that round to nearest", "why_tests_cant": "A test shows the table of one fit; that no list of data set or parameter names and no values make the table pair a name with the wrong value is a statement about all of them.", "anchors": ["src/elisa/infer/results.py: MLEResult._tabs, MLEResult.mle, MLEResult.deviance", "src/elisa/infer/fit.py: Fit._make_info_table", "src/elisa/infer/helper.py: ndata, dof"]}
{"id": "C129", "title": "The order of the data sets does not matter", "statement": "Giving the data sets of a fit in another order, each with its own model and statistic, is accepted exactly when the original order is, refused with the same kind of error otherwise, and pairs every data set with the same model and statistic; for given model spectra every data set contributes the same terms, and the total statistic, the degrees of freedom, AIC and BIC are the same. Only the names of components fitted to some of the data sets follow the order given.", "quantifier": "all lists of data sets, models and statistics, all permutations, all ways to give one model or statistic for all", "why_tests_cant": "A test permutes one pair of data sets; the claim is about all permutations of all lists, including the refused ones.", "anchors": ["src/elisa/infer/fit.py: Fit._parse_input, Fit.__init__", "src/elisa/infer/helper.py: get_loglike, deviance", "src/elisa/infer/results.py: aic, bic"]}
{"id": "C130", "title": "The fit statistic has no jumps and a best fit exists", "statement": "For usable data and for every statistic, the total statistic can be computed at all parameter values and changes continuously with the parameters if the model spectra do, also where fluxes are clipped and where the profiled background changes its formula. If the parameters range over a compact set (closed bounds) a best fit exists, and so do the extreme values of every continuous function of the parameters over each confidence region. With open bounds, as the sampler uses, there may be none.", "quantifier": "all data sets, statistics, parameter spaces and continuous models", "why_tests_cant": "Continuity at every point and the existence of a minimum are statements about all real parameter values; a test evaluates finitely many.", "anchors": ["src/elisa/infer/likelihood.py: chi2, cstat, pstat, pgstat, wstat, pgstat_background, wstat_background", "src/elisa/infer/helper.py: deviance"]}
{"id": "C131", "title": "Deviance residuals and Pearson residuals of a fit agree within stated bounds", "statement": "For every fit whose expected counts are inside the clipping limits, the two kinds of residuals that can be plotted for a channel are never of opposite sign, and the square of the deviance residual is at most twice the square of the Pearson residual. With chi2 they are the same number. With cstat and pstat the squares differ by at most the fraction |n-mu|/(n+mu) of the Pearson one, the deviance being larger below the model and smaller above it. (With wstat, for channels with off counts.)", "quantifier": "every statistic, data set, model prediction and channel", "why_tests_cant": "it is an inequality between two real-valued functions of all counts, background counts, errors and predictions", "anchors": ["src/elisa/plot/data.py: FitPlotData.deviance_residuals_mle/pearson_residuals_mle", "src/elisa/infer/likelihood.py: _chi2/_cstat/_pstat/_pgstat/_wstat, pearson_residual"]}
{"id": "C132", "title": "Freezing or linking a parameter gives a nested model", "statement": "Freezing a free parameter at a value inside its bounds never fails, lowers the number of free parameters by exactly one, and leaves a model that reaches exactly the predictions of the original one with that parameter held at the value. Replacing a parameter by an expression of other parameters leaves a model whose predictions the original model reaches too. So no statistic improves by freezing or linking.", "quantifier": "every model, parameter, value, statistic and choice of the other parameters", "why_tests_cant": "it compares the sets of everything two models can predict", "anchors": ["src/elisa/models/parameter.py: UniformParameter.default/fixed, CompositeParameter", "src/elisa/models/model.py: _param_setter, Model.compile, get_model_info"]}
{"id": "C133", "title": "Library models are never negative and never undefined within the default bounds", "statement": "A component of the library whose parameters are inside the bounds its class declares gives, on every grid of positive increasing energies, numbers that are not negative; so does every model built from such components by sums, products and convolutions. Adding a component never lowers the model or the folded counts in any bin, and putting an absorber in front of it never raises them.", "quantifier": "every class, parameter values inside the declared bounds, energy grid, model expression and non-negative response", "why_tests_cant": "it ranges over all parameter values and over all models that can be written", "anchors": ["src/elisa/models/add.py: _config, continuum/integral of all classes", "src/elisa/models/mul.py: _config, continuum/integral of all classes", "src/elisa/models/conv.py: _config, convolve of all classes", "src/elisa/models/model.py: NumericalIntegral._make_integral, CompositeModel"]}
{"id": "C134", "title": "Fluxes, luminosities and energies of a fit agree with each other and with the spectrum", "statement": "flux of a fit reports for each data set the flux of its model over the band: the photon flux exactly, whatever the grid, so adjacent bands add up; the energy flux up to the grid spacing. lumin is 4 pi d_L^2 times the energy flux in the observed band and eiso is lumin times the rest-frame duration - for the value, the standard error, the interval and the errors of every data set. A band the flux makes no sense for is refused.", "quantifier": "every list of data sets sharing models in any way, every model, band, grid, redshift, cosmology, duration, both methods", "why_tests_cant": "continuum of bands, grids, redshifts and spectra; a test compares a few numbers", "anchors": ["src/elisa/infer/results.py:MLEResult.flux", "src/elisa/infer/results.py:MLEResult.lumin", "src/elisa/infer/results.py:MLEResult.eiso", "src/elisa/infer/results.py:FitResult.__init__"]}
{"id": "C135", "title": "A Bayesian fit samples prior times likelihood", "statement": "The density a Bayesian fit samples is the product of the priors of the free parameters, each counted once, and of exp(-D/2), D being the statistic that a maximum-likelihood fit of the same data minimises. The default priors are normalised. The evidence is positive, at most 1 and at most the largest likelihood, and further data never increase it. With the default priors the most probable values are the best-fit values.", "quantifier": "every list of free parameters with default priors, every list of data sets, statistics and models, every value of the parameters, every prior for the evidence", "why_tests_cant": "continuum of parameters, all data sets and statistics; a test compares the density at a few points", "anchors": ["src/elisa/infer/helper.py:get_helper", "src/elisa/infer/likelihood.py:BetterPoisson", "src/elisa/infer/likelihood.py:wstat", "src/elisa/models/parameter.py:UniformParameter"]}
{"id": "C136", "title": "Components can be switched off and amplitudes are linear", "statement": "Every additive component of the library is proportional to its amplitude. Every multiplicative component and every shift has a setting inside its declared bounds for which the model is the same as without it, so adding it never makes the best fit worse; adding an additive component never makes the best fit worse.", "quantifier": "every component of the library, every expression it is added to, all parameters, grids, integration methods and statistics", "why_tests_cant": "continuum of parameters and grids, every component and every expression; a test tries a few values", "anchors": ["src/elisa/models/add.py:PowerLaw", "src/elisa/models/mul.py:Edge", "src/elisa/models/conv.py:ZAShift", "src/elisa/models/model.py:ParamConfig"]}
{"id": "C137", "title": "A fit is fixed when it is made; objects do not share arrays", "statement": "A fit keeps the data it was given, whatever is done later to the data objects, to their grouping or ranges, or to any array that was used to make them. A spectrum is not altered by later changes to the arrays it was made from. Data sets do not influence each other. The grouped arrays of a data set always belong to the grouping and ranges in force. Setting a grouping leaves the array passed to it unchanged, and set_grouping(None) restores the grouping of the file.", "quantifier": "every history of creating arrays, spectra, data sets and fits, of writing into arrays, and of changing groupings and ranges", "why_tests_cant": "histories and aliasing of objects are unbounded; a test runs a few scripts", "anchors": ["src/elisa/data/base.py:ObservationData.get_fixed_data", "src/elisa/data/base.py:ObservationData.set_grouping", "src/elisa/data/base.py:SpectrumData", "src/elisa/data/base.py:ResponseData", "src/elisa/infer/fit.py:Fit"]}
{"id": "C138", "title": "Fitting repeated observations together is fitting their sum", "statement": "For several observations made with one response, the statistic of the joint fit and that of the fit of the added counts with the added exposure differ by a number that does not depend on the model: all differences of the statistic, and so the best fits and confidence intervals, agree. This holds for cstat, for pstat when the known background accumulates with the exposure, and for chi2 when the squared errors do; it does not hold for wstat, where each observation has its own unknown background.", "quantifier": "any number of observations, channels and counts, every response and exposures, all model values in the numerical range", "why_tests_cant": "the identity ranges over all data and all models", "anchors": ["src/elisa/infer/likelihood.py:cstat", "src/elisa/infer/likelihood.py:pstat", "src/elisa/infer/likelihood.py:chi2", "src/elisa/infer/likelihood.py:wstat", "src/elisa/infer/helper.py:get_helper"]}
{"id": "C139", "title": "Units of exposure, area and extraction region do not matter", "statement": "An observation whose exposures, AREASCAL and BACKSCAL are given in other units (source and background alike) yields the same groups for every grouping method, the same reports of success and exceptions, the same counts, errors, background ratios and net counts after any sequence of set_erange, set_grouping and group, accepts the same statistics, and gives every channel the same log-likelihood when the model flux is expressed in the new unit (fluxes within the numerical range of the program).", "quantifier": "all legal observations, all positive unit factors, all energy ranges, all sequences of set_erange/set_grouping/group calls, all statistics and fluxes", "why_tests_cant": "A test compares a few unit choices for a few data sets; the claim needs every grouping decision, including the significance of every candidate group, to depend on the scales only through ratios.", "anchors": ["src/elisa/data/base.py:ObservationData.set_grouping", "src/elisa/data/base.py:ObservationData.group", "src/elisa/data/grouping.py:_group_back_ratio", "src/elisa/data/grouping.py:_interval_back_ratio", "src/elisa/infer/likelihood.py:wstat"]}
{"id": "C140", "title": "A longer observation with the same rates multiplies the statistic", "statement": "Observing k times as long at the same rates (k times the counts of source and background, errors larger by the square root of k, k times the exposures) leaves energies, response, area scale, ratios and the spectrum per unit time of every group unchanged, is accepted for the same statistics, and multiplies the statistic of a fit to any number of such data sets by k for all parameters; so best fits stay best fits, and the parameters within k*Delta of the best fit are those within Delta before.", "quantifier": "all legal observations, all factors k > 0, all energy ranges and grouping flags, all five statistics, all models and parameters within the numerical range of the program, any number of data sets", "why_tests_cant": "A test can compare a few spectra and parameters; that the statistic is homogeneous in the data for every model also depends on the profiled backgrounds of wstat and pgstat in all their branches.", "anchors": ["src/elisa/data/base.py:ObservationData.set_grouping", "src/elisa/infer/likelihood.py:wstat_background", "src/elisa/infer/likelihood.py:pgstat_background", "src/elisa/infer/likelihood.py:BetterPoisson.log_prob", "src/elisa/infer/helper.py:get_helper"]}
{"id": "C141", "title": "Splitting photon-energy bins leaves the statistic unchanged", "statement": "When bins of the photon-energy grid of a response are split at any energies and every part keeps the response of its bin, the fit sees the same expected counts, fitted background and log-likelihood in every channel, whatever the statistic and the model parameters.", "quantifier": "all responses, all ways to split their bins, all data, all five statistics, models built from the additive components by sums, constant factors and redshifts, with bin fluxes in the numerical range of the program", "why_tests_cant": "The number of bins, where they are split, and the parameters are unbounded; a test compares a few grids, and the broken power law passes it unless a split bin contains the break.", "anchors": ["src/elisa/models/add.py:PowerLaw", "src/elisa/models/add.py:BrokenPL", "src/elisa/models/add.py:PLFluxNorm", "src/elisa/models/add.py:Lorentz", "src/elisa/models/conv.py:ZAShift", "src/elisa/infer/likelihood.py:cstat", "src/elisa/infer/likelihood.py:wstat", "src/elisa/data/base.py:ResponseData"]}
{"id": "C142", "title": "Data outside the chosen energy ranges never influence a fit", "statement": "Two data sets that hold the same counts, errors, scales, background and response in the good channels inside the energy ranges a user ever asked for give the same channel groups, the same success reports and the same statistic for every model, whatever the channels outside these ranges contain.", "quantifier": "all pairs of legal observations that agree inside the ranges, with arbitrary contents outside; all sequences of set_erange, set_grouping and group calls (every method and scale); all statistics and model fluxes", "why_tests_cant": "non-interference relates two runs on arbitrary pairs of data sets; a test can vary a few out-of-range channels for a few call sequences", "anchors": ["src/elisa/data/base.py:ObservationData.set_grouping", "src/elisa/data/base.py:ObservationData.group", "src/elisa/data/base.py:ObservationData.set_erange", "src/elisa/data/base.py:ObservationData._get_channel_mask", "src/elisa/infer/likelihood.py"]}
{"id": "C143", "title": "A goodness-of-fit test rejects a correct model as often as its level says", "statement": "If the model is correct, so that the statistic of the data and those of the simulated data sets are interchangeable, the reported goodness-of-fit p-value is at most alpha with probability at most alpha, whatever the statistic, its distribution and the number of simulations.", "quantifier": "every joint distribution of the observed and simulated statistics that no permutation changes (ties included), every number of simulations, every level", "why_tests_cant": "it is a statement about probabilities over all distributions and all numbers of simulations; a test sees a few p-values", "anchors": ["src/elisa/infer/results.py:MLEResult.boot", "src/elisa/infer/results.py:MLEResult.gof"]}
{"id": "C144", "title": "Whole-number counts are grouped exactly in float64", "statement": "For Poisson counts (whole numbers stored as float64) whose sum does not exceed 2^53, minimum-count grouping, optimal grouping with a minimum number of counts and the counts of the groups come out as with exact arithmetic, for every order in which numpy adds numbers up and every way of breaking rounding ties; the bound 2^53 cannot be raised.", "quantifier": "all arrays of non-negative whole numbers with sum up to 2^53, all thresholds, flags and quality masks; all round-to-nearest arithmetics and all summation orders, which may differ from call to call", "why_tests_cant": "the summation order of numpy depends on the length, alignment and processor; tests see one machine and a few arrays", "anchors": ["src/elisa/data/grouping.py:group_min", "src/elisa/data/grouping.py:group_opt", "src/elisa/data/base.py:SpectrumData.group"]}
{"id": "C145", "title": "Grouped float64 counts carry a bounded rounding error", "statement": "For counts that are arbitrary non-negative float64 numbers (Gaussian data, scaled counts) the counts of every group are computed with a relative error of at most N * 2^-52, where N is the number of channels, for every summation order; there is one value for every group and inputs are refused in the same cases.", "quantifier": "all spectra with non-negative float64 counts of total at most 2^1022 and at most 2^52 channels; all grouping flags and quality masks; all round-to-nearest arithmetics and summation orders", "why_tests_cant": "a rounding-error bound is a statement about all inputs and all summation orders; tests compare a few sums with a tolerance chosen by hand", "anchors": ["src/elisa/data/base.py:SpectrumData.group"]}
{"id": "C146", "title": "Profile backgrounds stay non-negative and rates positive in float64", "statement": "In float64 arithmetic the background rate the W- and PG-statistic maximise over is never negative, is positive in channels where background counts were observed, and the expected counts of the source region are positive, so that the statistic is always a finite number.", "quantifier": "all expected source counts the code can reach (clipped to 1e-30 ... 1e15), all background ratios and errors between 2^-100 and 2^100, all whole numbers of counts up to 2^53, all background estimates up to 2^100; all round-to-nearest arithmetics", "why_tests_cant": "cancellation in (c + sqrt(c^2 + ...)) depends on the last bits of every operand; no set of test points excludes a negative or zero rate", "anchors": ["src/elisa/infer/likelihood.py:wstat_background", "src/elisa/infer/likelihood.py:pgstat_background", "src/elisa/infer/likelihood.py:wstat", "src/elisa/infer/likelihood.py:pgstat", "src/elisa/infer/helper.py"]}
{"id": "C147", "title": "Expected counts in float64: dense and sparse responses agree to rounding", "statement": "In float64 arithmetic the expected source counts of a channel differ from their exact value by a relative error of at most (K+3) 2^-52, K the number of operands of the sum over photon bins, and a response stored as a sparse matrix gives the same expected counts as a dense one up to such rounding errors.", "quantifier": "all non-negative responses and model values, all area scales and exposures up to 2^60, all channels, all orders of summation, with or without fused multiply-add and zero padding, all round-to-nearest arithmetics; underflow included", "why_tests_cant": "the order of additions is chosen by the BLAS and the sparse kernels and differs between machines; a test only sees one of them", "anchors": ["src/elisa/infer/likelihood.py:_get_resp_matrix", "src/elisa/infer/likelihood.py:chi2", "src/elisa/infer/likelihood.py:cstat", "src/elisa/infer/likelihood.py:pgstat", "src/elisa/infer/likelihood.py:wstat", "src/elisa/data/base.py:FixedData.response_sparse"]}
{"id": "C148", "title": "Components evaluate their documented formulas", "statement": "In every energy bin a component holds the integral (additive) or mean (multiplicative) of the formula given in its documentation: exactly for the analytically integrated components, by the trapezoidal or Simpson rule for the others; photon absorption follows its table of cross sections as a power law between entries.", "quantifier": "all components of the library, all parameter values within their declared bounds, all grids of positive increasing energies, both integration methods", "why_tests_cant": "a formula that agrees at the tested parameters and energies can differ elsewhere, in a clipped branch or at an index where the closed form changes", "anchors": ["src/elisa/models/add.py", "src/elisa/models/mul.py", "src/elisa/models/model.py:NumericalIntegral._make_integral", "src/elisa/models/model.py:AnaIntAdditive", "src/elisa/models/model.py:NumIntAdditive"]}
{"id": "C149", "title": "The C-statistic in float64: error bound from response to total, dense and sparse alike", "statement": "In float64 arithmetic, with a logarithm accurate to a few units in the last place, the Poisson log likelihood of a channel is off by at most 2^-47 of the size of its terms, never positive and free of overflow; with up to 10^6 counts its part of the statistic is off by less than 2e-6; the C-statistic of a data set, from the product with the response to the sum over channels, is off by at most 2^-50 times (photon bins + channels + 39) times the summed size of the terms; a channel that the model reproduces exactly adds exactly zero.", "quantifier": "all whole-number counts up to 2^53, all expected counts between 2^-200 and 2^60, all numbers of channels and photon bins, every order of summation, dense and sparse response and distribution, every round-to-nearest arithmetic and every accurate logarithm", "why_tests_cant": "rounding errors depend on the data, on the order of summation and on the library; a test samples a few values on one machine", "anchors": ["src/elisa/infer/likelihood.py:BetterPoisson.log_prob", "src/elisa/infer/likelihood.py:cstat", "src/elisa/infer/helper.py:get_loglike", "src/elisa/infer/helper.py:deviance"]}
{"id": "C150", "title": "Power law bins in float64", "statement": "In float64 arithmetic the photons of a power law in a bin are accurate to a few units in the last place times the stated amplification, never negative, and every index in the allowed range, in particular an index near one, gives the photons of a power law of that index to rounding.", "quantifier": "all indices, all bins with edges between 1e-6 and 1e6 keV, every round-to-nearest arithmetic, every accurate power and logarithm", "why_tests_cant": "the loss of digits depends on the index and the width of the bin; tests use round indices and either exactly one or values far from it", "anchors": ["src/elisa/models/add.py:_powerlaw_integral", "src/elisa/models/add.py:PowerLaw", "src/elisa/models/add.py:PLFluxNorm", "src/elisa/models/add.py:BrokenPL"]}
{"id": "C151", "title": "Li-Ma significance in float64", "statement": "In float64 arithmetic the Li-Ma significance of a group is a number for every pair of counts, has the right sign, and is accurate enough that grouping to a significance gives the grouping of exact arithmetic unless a significance is within rounding of the wanted one.", "quantifier": "all counts, all ratios between 2^-30 and 2^30, every round-to-nearest arithmetic, every accurate logarithm", "why_tests_cant": "the terms cancel when there is no excess, and the sign of what is left depends on the last bits of the ratio; tests use groups with a clear excess", "anchors": ["src/elisa/data/grouping.py:significance_lima", "src/elisa/data/grouping.py:group_sig_lima"]}
{"id": "C152", "title": "Chi-square and P-statistic in float64", "statement": "The chi-square statistic and the P-statistic that a fit minimizes, as computed in float64 from the product with the response to the sum over the channels, are those of exact arithmetic up to a small multiple of 2^-50 of the size of their terms, whatever the order of the sums.", "quantifier": "all data sets with non-negative responses and finite counts and uncertainties, all model values within the clipping limits, every round-to-nearest arithmetic, every order of the sums, dense or sparse responses and Poisson distributions", "why_tests_cant": "the order of the sums is chosen by the compiler and the processor, and the statistic is small where the sizes of its terms are not; tests compare a few statistics with a tolerance", "anchors": ["src/elisa/infer/likelihood.py:chi2", "src/elisa/infer/likelihood.py:pstat", "src/elisa/infer/likelihood.py:BetterNormal", "src/elisa/infer/helper.py:get_loglike"]}
{"id": "C153", "title": "W-statistic in float64", "statement": "The W-statistic that a fit minimizes, as computed in float64 from the product with the response over the profile background to the sum over the channels, is that of exact arithmetic up to a small multiple of 2^-50 of the size of its terms, times the ratio of source to background counts in the source region (which measures the digits the profile background loses), whatever the order of the sums.", "quantifier": "all data sets with non-negative responses, whole counts in both regions and ratios within 2^±30, all model values within the clipping limits, every round-to-nearest arithmetic, every order of the sums, dense or sparse responses and Poisson distributions", "why_tests_cant": "the profile background is a root of a quadratic whose numerator cancels, with separate branches for empty regions chosen by comparisons of computed numbers; tests compare a few statistics with a tolerance", "anchors": ["src/elisa/infer/likelihood.py:wstat", "src/elisa/infer/likelihood.py:wstat_background", "src/elisa/infer/likelihood.py:BetterPoisson", "src/elisa/infer/helper.py:get_loglike"]}
{"id": "C154", "title": "Significance over a Gaussian background: zero uncertainties and rounding", "statement": "The significance of an interval over a background with Gaussian uncertainties is a finite number that is close to the one of exact arithmetic, and grouping by significance closes a group as soon as its significance reaches the threshold, also where the uncertainty of the background is zero.", "quantifier": "all non-negative counts, backgrounds, non-negative uncertainties and ratios, all lists of channels; for the rounded version every round-to-nearest arithmetic and every logarithm accurate to 2^-50", "why_tests_cant": "NaN and infinities arise only where an uncertainty vanishes or where a rounded difference of nearly equal numbers is negative, for isolated inputs such as 43 background counts with the uncertainty of counts; all comparisons with NaN are false, so that the grouping goes on silently", "anchors": ["src/elisa/data/grouping.py:significance_gv", "src/elisa/data/grouping.py:group_sig_gv"]}
{"id": "C155", "title": "PG-statistic in float64", "statement": "The PG-statistic that a fit minimizes, as computed in float64 from the product with the response over the profile background to the sum over the channels, is that of exact arithmetic up to a small multiple of 2^-50 of the size of its terms, times the ratio of the numbers that cancel in the profile background to the expected counts, whichever branch the computed numbers select and whatever the order of the sums; where the background estimate is at least twice its variance times the ratio of the regions, that ratio is at most nineteen.", "quantifier": "all data sets with non-negative responses, whole source counts, background estimates of either sign up to 2^60, uncertainties and ratios within 2^±30, all model values within the clipping limits, every round-to-nearest arithmetic, every order of the sums, dense or sparse responses", "why_tests_cant": "the profile background is a root of a quadratic chosen by the signs of two computed numbers that may themselves have lost all digits, so that rounding can select another branch than exact arithmetic; tests compare a few statistics with a tolerance", "anchors": ["src/elisa/infer/likelihood.py:pgstat", "src/elisa/infer/likelihood.py:pgstat_background", "src/elisa/infer/likelihood.py:BetterNormal", "src/elisa/infer/likelihood.py:BetterPoisson", "src/elisa/infer/helper.py:get_loglike"]}
{"id": "C156", "title": "Grouping by plain significance in float64", "statement": "Grouping by the ratio of counts to error (method bsig, and method sig for Gaussian data or without a background) computes in float64 the same groups and the same success flag as exact arithmetic would, in particular whether a group reaches the requested significance.", "quantifier": "all lists of counts of either sign, of errors and thresholds (no bound on their number but 2^40), every rounding to nearest and every order in which NumPy may add", "why_tests_cant": "Whether a sum of rounded terms ends on the right side of a threshold depends on the last bit of every sum, and the order of the additions is not specified; tests see single data sets on one machine.", "anchors": ["src/elisa/data/grouping.py:group_sig_normal", "src/elisa/data/base.py:ObservationData.group"]}
{"id": "C157", "title": "Sums over intervals of channels in float64", "statement": "When channels are grouped by significance, the counts, background, background variance and exposure ratio used for an interval of channels are, up to rounding, those of the channels in the interval, whatever the channels before it contain.", "quantifier": "all lists of numbers of either sign (up to 2^25 channels), all intervals, every rounding to nearest", "why_tests_cant": "The sums are differences of running totals, so the error of an interval depends on everything before it; tests see single data sets with comparable channels.", "anchors": ["src/elisa/data/grouping.py:_prefix_sum", "src/elisa/data/grouping.py:_interval_sum", "src/elisa/data/grouping.py:_scale_from_interval", "src/elisa/data/grouping.py:_interval_back_ratio", "src/elisa/data/grouping.py:group_sig_gv"]}
{"id": "C158", "title": "Optimal grouping with a minimum plain significance in float64", "statement": "Grouping channels to optimal width with a minimum significance given by counts and errors gives, in float64, the groups and the reported success of exact arithmetic, in whatever order NumPy adds.", "quantifier": "all numbers of channels up to 2^40, all counts of either sign, all errors, all widths, every order of addition and every rounding to nearest", "why_tests_cant": "Bins that just reach the threshold are decided by rounding, which depends on the order of additions; tests see single spectra.", "anchors": ["src/elisa/data/grouping.py:group_optsig_normal", "src/elisa/data/base.py:ObservationData.group"]}
{"id": "C159", "title": "Optimal grouping with a minimum Li-Ma or Gaussian-background significance in float64", "statement": "Grouping channels to optimal width with a minimum significance over a Poisson or a Gaussian background gives, in float64, the groups and the reported success of exact arithmetic.", "quantifier": "all numbers of channels, all counts up to a million, all backgrounds and ratios of ordinary size, all widths, every rounding to nearest and every accurate logarithm", "why_tests_cant": "The significance is computed with cancellation and may be NaN or infinite; a test sees single spectra and cannot show that no grouping changes.", "anchors": ["src/elisa/data/grouping.py:group_optsig_lima", "src/elisa/data/grouping.py:group_optsig_gv", "src/elisa/data/base.py:ObservationData.group"]}
{"id": "C160", "title": "Nothing that is given about a spectrum is changed without a warning", "statement": "When a spectrum is made from arrays or read from a file, counts, quality and exposure are kept as given; scales and grouping flags are changed only with a warning; the user is warned, once, exactly when Poisson counts are not whole numbers, when errors are zero, and when systematic errors are ignored.", "quantifier": "all arrays, files, header keywords and switches of the warnings", "why_tests_cant": "Warnings depend on single channels of arrays of any size and on comparisons with a tolerance; tests look at a few spectra.", "anchors": ["src/elisa/data/base.py:SpectrumData.__init__", "src/elisa/data/ogip.py:Spectrum.__init__"]}
{"id": "C161", "title": "Replacing strings in nested values", "statement": "replace_string(value, mapping) replaces every occurrence of a key of the mapping, all at once, in every string of the value at any depth, keys of dictionaries included, and leaves everything else as it is: lists stay lists of the same length and dictionaries keep their entries.", "quantifier": "all nested lists, tuples and dictionaries of strings and other objects, and all mappings", "why_tests_cant": "Values nest to any depth and keys may overlap; examples cannot cover how replacements interact.", "anchors": ["src/elisa/util/misc.py:replace_string"]}
{"id": "C162", "title": "Grouping with a minimum significance, everything in float64", "statement": "Grouping channels with a minimum Li-Ma or Gaussian-background significance, with the sums over intervals, scale factors, ratios, significances and the final report of success all computed in float64, gives the groups and the reported success of exact arithmetic.", "quantifier": "all numbers of channels, counts, backgrounds, errors, scale factors and thresholds; all optimal widths; every rounding to nearest, every order of additions numpy may choose and every accurate logarithm", "why_tests_cant": "Rounding errors of long prefix sums, of four scale factors and of a logarithm add up in one comparison per interval; a test sees single spectra and cannot show that no comparison changes.", "anchors": ["src/elisa/data/grouping.py:group_sig_lima", "src/elisa/data/grouping.py:group_sig_gv", "src/elisa/data/grouping.py:group_optsig_lima", "src/elisa/data/grouping.py:group_optsig_gv", "src/elisa/data/grouping.py:_interval_sum", "src/elisa/data/grouping.py:_interval_back_ratio"]}

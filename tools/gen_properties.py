#!/usr/bin/env python3
"""Generates /verif/properties.jsonl (one JSON object per line)."""
import json, pathlib
P = []
def p(id, title, statement, quantifier, why, anchors):
    P.append(dict(id=id, title=title, statement=statement, quantifier=quantifier,
                  why_tests_cant=why, anchors=anchors))
G='src/elisa/data/grouping.py'; B='src/elisa/data/base.py'; O='src/elisa/data/ogip.py'
PA='src/elisa/models/parameter.py'; M='src/elisa/models/model.py'; A='src/elisa/models/add.py'
MU='src/elisa/models/mul.py'; CV='src/elisa/models/conv.py'; U='src/elisa/util/misc.py'
L='src/elisa/infer/likelihood.py'; H='src/elisa/infer/helper.py'; F='src/elisa/infer/fit.py'
R='src/elisa/infer/results.py'; RS='src/elisa/plot/residuals.py'; CF='src/elisa/util/config.py'

p('C01','Minimum-count grouping delivers what it reports',
 "Data.group('min', n) on a segment of channels yields flags that start a group at the first channel, and reports success exactly when the segment holds at least n counts in total; when it reports success every group has at least n counts, every group but the last is minimal (it stops at the first channel where n is reached), and no other contiguous grouping with at least n counts per group has more groups.",
 'all non-empty arrays of non-negative channel counts and all positive integers n',
 'the greedy closing rule and the merge of the trailing group interact with every pattern of zeros and every length; a finite set of spectra cannot cover them',
 [G+':group_min', B+':ObservationData.group'])
p('C02','Constant grouping never produces a short group',
 "Data.group('const', c) splits the segment in consecutive groups of exactly c channels except that the last one absorbs the remainder (at least c, fewer than 2c channels), and the first channel of the segment starts a group.",
 'all channel numbers n and all c >= 1',
 'boundary arithmetic on n mod c must hold for every pair (n, c); the failing region n < c is easy to miss by sampling',
 [G+':group_const'])
p('C03','Optimal grouping respects the optimal bin width of every channel it contains',
 "Data.group('opt') partitions the segment; each group is contiguous, and for every channel k inside a group the group ends no later than k + bint[k] - 1, where bint[k] is the optimal width at k; groups are maximal under this rule.",
 'all non-empty width arrays bint >= 1 of any length',
 'the width constraint couples all channels in a group; tests look at a few FWHM profiles',
 [G+':group_opt', G+':_calc_optimal_binning'])
p('C04','Optimal grouping with minimum counts delivers what it reports',
 "Data.group('optmin', n) returns a partition of the segment whose groups all hold at least n counts whenever success is reported, reports success exactly when the segment total is at least n, and never makes a group (other than the merged last one) longer than needed by both the optimal width and the count requirement.",
 'all non-empty count arrays with non-negative counts, all widths >= 1, all n >= 1',
 'extension of groups by cumulative sums and the merge of the tail must be right for every count pattern',
 [G+':group_opt'])
p('C05','Significance grouping delivers what it reports',
 "Data.group('sig', s) / ('bsig', s) (Li-Ma, Gaussian-background, or normal significance recomputed per candidate group) yields a partition starting at the first channel; success is reported exactly when every final group has significance >= s; every group except the last reached the threshold at its final channel and not before.",
 'all non-empty data arrays, all thresholds, all significance functions of an interval',
 'significance is not monotone in the interval, so the correctness of the greedy loop with tail merge cannot be read from examples',
 [G+':group_sig_lima', G+':group_sig_gv', G+':group_sig_normal'])
p('C06','Optimal significance grouping delivers what it reports',
 "Data.group('optsig', s) and ('optbsig', s) yield a partition starting at the first channel; success is reported exactly when every final group reaches the threshold; every group except the last is at least as wide as the optimal bin and stops at the first channel from there where the threshold is met.",
 'all non-empty data arrays, all widths >= 1, all thresholds',
 'two nested loops and a merge; non-monotone significance',
 [G+':group_optsig_lima', G+':group_optsig_gv', G+':group_optsig_normal'])
p('C07','Regrouping grouped scale factors equals grouping the raw channels once',
 'Grouping AREASCAL/BACKSCAL with a first grouping and regrouping the result with a second grouping gives the same effective scale and sufficient statistics as grouping the raw channels once with the composed grouping, for NET (arithmetic) and count-weighted (harmonic) averaging and any channel quality.',
 'all counts, scales, qualities and all pairs of composable groupings',
 'an algebraic identity over all arrays; also must hold in all fallback branches (zero counts, zero scales, all-bad groups)',
 [G+':_group_scale_data', G+':_scale_from_interval', G+':_build_scale_prefix'])
p('C08','Interval background ratio used while grouping equals the ratio of the final group',
 'The background ratio evaluated for a candidate group [i, j) while searching for groups equals the ratio that the final grouped observation reports for that group.',
 'all scale data and all intervals',
 'two different algorithms (prefix sums vs reduceat) must agree on every interval including degenerate ones',
 [G+':_interval_back_ratio', G+':_interval_ratios', G+':_group_back_ratio', G+':_interval_sum'])
p('C09','A grouped scale is a genuine mean of its channels',
 'The effective scale of a group lies between the smallest and the largest scale of its good channels when scales are positive and counts non-negative; a constant scale is preserved; and total counts / effective scale equals the sum of counts / scale.',
 'all positive scale arrays, non-negative counts and qualities with a good channel in the group',
 'inequality over all arrays and both averaging rules',
 [G+':_group_scale_data'])
p('C10','Li-Ma significance is real, signed and vanishes only without excess',
 'For every non-negative on/off count pair and positive ratio the radicand in the Li-Ma significance is non-negative, the significance is zero exactly when n_on = a n_off, positive exactly for an excess and negative exactly for a deficit.',
 'all real n_on, n_off >= 0 and a > 0',
 'an inequality of logarithms over a continuum',
 [G+':significance_lima'])
p('C11','Gaussian-background significance is real, signed and profiled correctly',
 'For n >= 0, background b >= 0, error s > 0 and ratio a > 0 the internal background estimate is the maximiser of the profile likelihood, the radicand is non-negative and the significance vanishes exactly when n = a b and has the sign of the excess.',
 'all real n, b >= 0 and s, a > 0',
 'continuum of inputs, nested square roots and logarithms',
 [G+':significance_gv'])
p('C12','Grouping conserves counts and variances',
 'For any grouping flags, the grouped counts sum to the total counts of good channels, the squared grouped errors sum to the total squared errors of good channels, and the number of groups is the number of group-start flags.',
 'all spectra, all qualities, all grouping flags starting with a group start',
 'must hold for any grouping array, not just ones used in tests',
 [B+':SpectrumData.group', B+':ObservationData.set_grouping'])
p('C13','Bad channels never influence the fitted data',
 'Changing the counts, errors or scale of a bad channel changes no grouped counts, error, scale, net counts or ratio that is used in a fit; a group with no good channel is excluded from the data.',
 'all spectra, qualities, groupings and all modifications of bad channels',
 'a non-interference property relating two arbitrary runs',
 [B+':ObservationData.set_grouping', B+':ObservationData.good_quality', B+':SpectrumData.group', G+':_group_scale_data'])
p('C14','Noticed groups are exactly those inside a requested energy range with a good channel',
 'After set_erange and set_grouping, a group is in the data exactly when some requested range contains its whole energy interval and it holds at least one good channel.',
 'all energy ranges, channel energies, qualities and groupings',
 'quantifies over all ranges and groupings',
 [B+':ObservationData.set_erange', B+':ObservationData.set_grouping'])
p('C15','Energy range validation accepts exactly strictly increasing, disjoint, non-touching ranges',
 'set_erange succeeds exactly when every range has emin < emax and, in some order, they are pairwise separated; the stored ranges are sorted and are a permutation of the given ones; on failure the previous ranges, grouping and data are unchanged.',
 'all finite lists of (emin, emax) pairs and all prior states',
 'all orderings and overlaps of arbitrarily many ranges',
 [B+':ObservationData.set_erange'])
p('C16','Net spectrum and its error are propagated correctly',
 'For every group net counts = on counts - ratio * off counts and squared net error = on variance + ratio^2 * off variance; without background both reduce to the spectrum itself; ce = net / (width * exposure).',
 'all grouped data',
 'every group and both presence/absence of background',
 [B+':ObservationData.set_grouping'])
p('C17','Requested grouping is the grouping obtained',
 "Data.group(method, scale) produces, among the noticed channels of each energy range, exactly the groups returned by the method, so that a success report means every noticed group meets the requested scale.",
 'all observations, energy ranges, quality flags and methods',
 'interplay of quality flags inside a group, energy filter and previous grouping ranges over all histories',
 [B+':ObservationData.group'])
p('C18','Folding a model commutes with grouping',
 'Folding a photon spectrum through the grouped response gives the same channel counts as folding through the ungrouped response and then summing the good channels of each group.',
 'all response matrices, model spectra, groupings and qualities',
 'linear-algebra identity over all matrices and groupings',
 [B+':ResponseData.group', M+':CompiledModel.ce'])
p('C19','Spectrum systematic errors enter exactly once',
 'A spectrum read from OGIP with statistical error e and fractional systematic error f has total error sqrt(e^2 + (f * counts)^2) in each channel.',
 'all non-Poisson spectra',
 'the two layers each apply the formula; only an all-input statement about the composition settles it',
 [O+':Spectrum.__init__', B+':SpectrumData.__init__'])
p('C20','OGIP response decoding is exact',
 'Decoding the compressed (N_GRP, F_CHAN, N_CHAN, MATRIX) representation of any redistribution matrix rebuilds that matrix entry by entry, whatever the padding; truncated rows are rejected instead of being misread.',
 'all matrices and all their encodings in channel subsets',
 'the encoding has arbitrarily many subsets and padding per row',
 [O+':_read_response', O+':Response'])
p('C21','Spectrum validation: accepted spectra satisfy the documented invariants',
 'A spectrum object can only be created with quality flags in the documented set, non-negative errors, non-negative integer-like counts when Poisson, positive exposure, positive scales in non-ignored channels, matching array lengths, and a grouping that begins with a group start.',
 'all constructor inputs',
 'conjunction of validations over every possible array combination',
 [B+':SpectrumData.__init__'])
p('C22','wstat background profile is the conditional maximum-likelihood background',
 'For every source expectation s >= 0, on/off counts and ratio a > 0, the background returned maximises the joint Poisson likelihood over all non-negative backgrounds.',
 'all real s >= 0 (s > 0), n_on, n_off >= 0, a > 0',
 'a continuum and several analytic branches',
 [L+':wstat_background'])
p('C23','pgstat background profile is the conditional maximum-likelihood background',
 'For every source expectation s > 0, counts n >= 0, background estimate b, error e > 0 and ratio a > 0 the background returned is non-negative and maximises the joint Poisson-Gaussian likelihood over all non-negative backgrounds.',
 'all real inputs in the domain',
 'a continuum and several analytic branches',
 [L+':pgstat_background'])
p('C24','Fit statistic of one Poisson channel is non-negative and zero only for a perfect model',
 'The normalised Poisson log likelihood is never positive and is zero exactly when the model equals the data, hence the C-statistic contribution is non-negative.',
 'all real counts n >= 0 and expectation mu > 0',
 'continuum',
 [L+':BetterPoisson', L+':cstat'])
p('C25','Total fit statistic is the sum over channels and data sets',
 'The total deviance equals the sum of per-data-set deviances, each equal to the sum of per-channel deviances, and equals the sum of squared deviance residuals.',
 'all collections of data sets of any size',
 'arbitrary number of data sets and channels',
 [H+':get_helper', F+':Fit', RS+':deviance_residuals_poisson'])
p('C26','Free parameters always start strictly inside their bounds',
 'For any history of creating a parameter and assigning default/min/max/fixed/log, a free parameter has min < default < max, and a log parameter has min > 0.',
 'all histories of attribute assignments',
 'arbitrary sequences of setter calls',
 [PA+':UniformParameter'])
p('C27','Rejected parameter updates leave the parameter unchanged',
 'When an assignment to default/min/max/fixed raises, the observable value, bounds, fixedness and scale are the ones before the assignment.',
 'all states and all assigned values',
 'every state and every rejected value',
 [PA+':UniformParameter'])
p('C28','Parameter assignment bookkeeping mirrors the model at all times',
 'After any sequence of parameter assignments over any components, the record of a parameter lists exactly the component slots that currently hold it.',
 'all finite assignment histories over all components and parameters',
 'histories of arbitrary length',
 [PA+':AssignmentTracker', M+':_param_setter'])
p('C29','Composite parameter labels denote the expression that is evaluated',
 'Reading the displayed name of a composite parameter with ordinary operator precedence gives back an expression with the same value as the parameter for all values of its leaves.',
 'all expression trees built with + - * / ** and all leaf values',
 'unbounded nesting of operators; parenthesisation rules are subtle',
 [PA+':CompositeParameter'])
p('C30','Composite parameter evaluation substitutes values and falls back to captured defaults',
 'The value of a composite parameter is the expression applied to the supplied values of its leaves, with the default at compile time for leaves not supplied; later mutation of defaults does not change a compiled model.',
 'all expression trees, all partial mappings, all later mutations',
 'unbounded expression trees and histories',
 [PA+':CompositeParameter', M+':Model.compile'])
p('C31','Model algebra is type-safe and evaluates pointwise',
 'A model expression built with + and * is accepted exactly when it type-checks (add+add, mul*mul, add*mul, mul*add, mul+mul is rejected), its type is add iff it contains an additive part at the top, and its value is the corresponding arithmetic on component values.',
 'all model expression trees',
 'unbounded nesting',
 [M+':CompositeModel', M+':Model.__add__', M+':Model.__mul__'])
p('C32','Additive components decompose the total model',
 'Evaluating a compiled additive model with comps=True yields sub-models whose values add up to the value of the total model.',
 'all model expression trees, parameter values and energy grids',
 'distribution of * over + with arbitrary nesting, repeated components, convolutions',
 [M+':Model._additive_comps', M+':CompiledModel'])
p('C33','Positional and keyword evaluation agree',
 'Evaluating a compiled model on a sequence of values in the order of its parameter list gives the same result as a mapping by name.',
 'all models with any sharing of parameters',
 'depends on how parameters are shared among components',
 [M+':CompiledModel.eval', M+':_value_sequence_to_params'])
p('C34','Namespaces assign unique names',
 'The names generated for components, parameters and data sets are pairwise distinct and each begins with the given label, with first occurrences kept unchanged.',
 'all lists of names, with and without primes',
 'collisions need specific name patterns',
 [U+':build_namespace', U+':add_suffix'])
p('C35','Photon flux over a band is independent of the grid partition',
 'For models with analytic bin integrals the photon flux over [emin, emax] equals the sum over any partition into bins and is additive over adjacent bands.',
 'all partitions and bands',
 'all partitions',
 [M+':CompiledModel.flux', M+':CompiledModel.ne', A+':_powerlaw_integral'])
p('C36','Power law bins are exact integrals',
 'PowerLaw bin values equal K times the integral of E^-alpha on the bin for every index, including alpha = 1.',
 'all 0 < e1 <= e2, real alpha and K',
 'continuum, removable singularity',
 [A+':_powerlaw_integral', A+':PowerLaw'])
p('C37','Broken power law bins are the integrals of the documented continuum',
 'BrokenPL bin values equal the integral of the documented N(E) on each bin, including the bin that contains the break.',
 'all grids, break energies and indices',
 'needs a statement for every bin/break position',
 [A+':BrokenPL'])
p('C38','Flux-normalised power laws deliver the requested flux',
 'PLPhFlux (PLEnFlux) integrated over [emin, emax] gives photon flux F (energy flux F in erg).',
 'all indices, bands and F',
 'continuum and special indices alpha = 1, 2',
 [A+':PLFluxNorm', A+':PLPhFlux', A+':PLEnFlux'])
p('C39','Band function is continuous and BandEp agrees with Band and peaks at Ep',
 'The Band spectrum is continuous at its break; BandEp(alpha, beta, Ep) equals Band(alpha, beta, Ep/(2+alpha)); E^2 N(E) of BandEp with alpha > -2 > beta is maximal at Ep.',
 'all parameters in the documented ranges and all energies',
 'continuum of parameters incl. the beta > alpha workaround',
 [A+':Band', A+':BandEp'])
p('C40','Redshift and velocity shifts compose and conserve photons',
 'ZAShift followed by ZAShift equals one shift with (1+z) multiplied; the shifted flux in a band equals the rest-frame flux in the shifted band divided by 1+z; z = 0 is the identity.',
 'all models and redshifts > -1',
 'for all models',
 [CV+':ZAShift', CV+':ZMShift', CV+':VAShift', CV+':VMShift'])
p('C41','Flux convolution delivers the requested flux whatever the input normalisation',
 'PhFlux applied to any additive model gives photon flux F on its band grid, and the result does not depend on the normalisation of the input model.',
 'all models with non-zero flux, all positive scalings',
 'for all models',
 [CV+':PhFlux', CV+':EnFlux'])
p('C42','Numerical bin integration is exact for linear (trapz) and cubic (simpson) continua and linear in the continuum',
 'NumInt components integrate polynomials of degree <= 1 (trapz) or <= 3 (simpson) exactly on each bin; multiplicative components return the bin average, so the constant 1 maps to 1.',
 'all grids and polynomials',
 'continuum',
 [M+':NumericalIntegral', M+':NumIntAdditive', M+':NumIntMultiplicative'])
p('C43','Default statistic is always admissible',
 'For every kind of data the automatically chosen statistic passes the compatibility check, and a statistic incompatible with the data is always rejected.',
 'all data kinds (Poisson/Gaussian spectrum, Poisson/Gaussian/no background, zero errors) and statistics',
 'the two tables live in different files and must agree on the full product',
 [H+':get_stat', H+':check_stat', F+':Fit'])
p('C44','Fit input broadcasting pairs each data set with the intended model and statistic',
 'Fit accepts exactly when the number of models (statistics) is 1 or the number of data sets, pairs data i with model i (or the only one), and rejects duplicate data names; every pair is present exactly once.',
 'all list lengths',
 'all list lengths and name patterns',
 [F+':Fit._parse_input'])
p('C45','Degrees of freedom and information criteria are consistent',
 'dof = total number of noticed groups - number of free parameters; AIC and BIC follow from the total deviance; AICc >= AIC whenever defined.',
 'all data sets and models',
 'all numbers',
 [H+':get_helper', R+':MLEResult'])
p('C46','Parallel batch evaluation equals sequential evaluation',
 'Running a batch of n fits on p devices by reshaping to (p, n/p) and concatenating returns, in order, the same results as running them one by one; when n is not a multiple of p the code refuses or rounds n up to a multiple.',
 'all n, p and per-item functions',
 'all sizes',
 [H+':get_helper', U+':get_parallel_number', R+':MLEResult.boot'])
p('C47','Progress reporting counts every evaluation exactly once under every schedule',
 'With any interleaving of parallel workers the progress bar advances by exactly the total number of evaluations and is closed only after all workers finished.',
 'all interleavings of all workers',
 'schedules',
 [U+':progress_bar_factory'])
p('C48','Confidence level conversion is monotone and idempotent',
 'Values below 1 are taken as probability and values >= 1 as number of sigmas; the result lies in (0,1), is idempotent, and credible-interval quantiles are symmetric and ordered.',
 'all positive levels',
 'continuum',
 [R+':_to_unit_cl'])
p('C49','Bootstrap and posterior-predictive p-values are genuine frequencies',
 'Each p-value is the fraction of simulated deviances at least as large as the observed, lies in [0,1] and decreases when the observed deviance increases.',
 'all simulated samples',
 'all samples',
 [R+':BootstrapResult', R+':PPCResult'])
p('C50','Parameter array and mapping conversions are inverse',
 'Converting a parameter mapping to an array and back, or an array to a mapping and back, is the identity when names are unique.',
 'all name lists and values',
 'all lengths',
 [H+':get_helper'])
p('C51','Parameter selection is validated, ordered and duplicate-free',
 'Selecting parameters by name returns them without duplicates in the canonical order, and any name that is unknown or not free/composite is rejected.',
 'all requested name lists',
 'all lists',
 [H+':check_params', R+':FitResult'])
p('C52','Dataset simulation uses the distribution of the likelihood',
 'Simulated data are generated from the same distribution (means and standard deviations) as the one in the likelihood for each statistic.',
 'all statistics and data',
 'two code paths for each statistic',
 [H+':get_simulator', L])
p('C53','Deviance residuals square to the deviance and carry the sign of the misfit',
 'For Poisson data the square of the deviance residual equals the deviance and its sign equals the sign of data - model.',
 'all counts and models',
 'continuum',
 [RS+':deviance_residuals_poisson', RS+':deviance_residuals_poisson_poisson'])
p('C54','Parallel worker number is always between 1 and the number of devices',
 'get_parallel_number returns a value between 1 and the device count or raises; set_cpu_cores always leaves exactly one device-count flag with a positive count and keeps all other flags.',
 'all requested numbers, device counts and environment strings',
 'all environments',
 [CF+':get_parallel_number', CF+':set_cpu_cores'])
p('C55','Lorentz line is normalised to its flux parameter',
 'Lorentz bins are exact integrals of a Lorentzian with FWHM sigma, and the total flux on (0, infinity) equals K.',
 'all parameters',
 'continuum, improper integral',
 [A+':Lorentz'])
p('C56','Net spectra are centred on the folded model',
 'The net spectrum computed from the expected "on" and "off" counts, (on - ratio*off)/(exposure*width), equals the folded model spectrum source_rate/width, for every statistic.',
 'all data, models and statistics',
 'an identity between two independent code paths (likelihood sites and net-counts computation) over all data',
 [H+':get_helper', L])
p('C57','Probability integral transforms are probabilities and limits are flagged on the right side',
 'The PIT of every channel is a pair lower <= upper in [0, 1]: for counts the probabilities that the modelled Poisson variable is below, and does not exceed, the data; for Gaussian data the probability that the modelled variable does not exceed them; else the upper value is the share of the simulations that do not exceed the net counts; simulation-based quantile residuals are finite, and are flagged as upper (lower) limits exactly when no (every) simulation lies below the data.',
 'all statistics, data, models and simulation outcomes',
 'all data and all outcomes of the random simulation',
 [RS+':pit_poisson', RS+':pit_poisson_poisson', RS+':quantile_residuals_poisson_poisson', 'src/elisa/plot/data.py:MLEPlotData'])
p('C58','OGIP spectra follow the documented conventions',
 'Reading a spectrum: POISSERR overrides the argument and one of both is required; COUNTS, RATE or RATES (times exposure) give the counts; STAT_ERR is required for non-Poisson spectra; Poisson errors are sqrt(counts); missing QUALITY/GROUPING mean good/ungrouped; HDUCLAS2 decides whether the spectrum is net.',
 'all spectrum extensions and arguments',
 'all combinations of present and absent fields',
 [O+':Spectrum.__init__'])
p('C59','Dataset name resolution',
 'The dataset name is the given non-empty name, otherwise the first usable of DETNAM, INSTRUME, TELESCOP, otherwise an error.',
 'all headers and arguments',
 'all headers',
 [O+':Data.__init__', O+':Spectrum.__init__'])
p('C60','Photon energy grids are positive and increasing after reading',
 'A response whose lowest photon energy is zero or negative is repaired so that the photon grid is positive and strictly increasing, and nothing else is changed.',
 'all grids',
 'continuum',
 [O+':Response._read_response'])
p('C61','Parameter collection lists every free parameter exactly once',
 'Collecting the parameters of a model (what the fit and the model summary are built from) never fails on a well-formed model; each free parameter object reachable from the components, also through composite parameters, is listed once under its own number 1..n; a parameter shared by several slots is owned by exactly one slot and shown as forwarded in the others; free, composite, fixed and integrated parameters are classified correctly; every displayed parameter has a name.',
 'all component lists and all parameter expression graphs (sharing included)',
 'the set of parameter graphs is infinite; a test fixes one graph',
 [M+':get_model_info', M+':ModelInfo'])
p('C62','Reported energy flux is accurate to the grid spacing',
 'The energy flux reported on the default logarithmic grid of n points differs from the exact integral of E N(E) over [emin, emax] at most by the factor (emax/emin)^(1/(2(n-1))), in both directions, for every non-negative spectrum with exact bins.',
 'all non-negative spectra, bands and grid sizes',
 'a statement about all spectra and all grids; a test checks one flux value to a tolerance',
 [M+':CompiledModel.flux', M+':CompiledModel.ene'])
p('C63','Luminosity and isotropic energy refer to the rest frame',
 'The luminosity of a spectrum emitted at redshift z is 4 pi d^2 times its rest-frame energy flux in the rest-frame band, d being the comoving distance; the isotropic energy is that times the rest-frame duration T/(1+z).',
 'all models, redshifts, bands, grids and cosmologies',
 'continuum of redshifts and cosmologies',
 [M+':CompiledModel.lumin', M+':CompiledModel.eiso', CV+':ZAShift'])
p('C64','Numerically stabilised branches agree with the closed form',
 'The switches that avoid overflow (smoothly broken power law beyond exp(30), blackbody below 1e-4 kT and above 50 kT) change the spectrum by a bounded, negligible relative or absolute amount; between the switches the value is the documented formula.',
 'all energies and parameters',
 'continuum; the switch points are exactly where tests do not sample',
 [A+':SmoothlyBrokenPL', A+':Blackbody', A+':BlackbodyRad'])
p('C65','Interval parameters average the model over the interval',
 'A model with interval parameters (of intervals that are not empty) evaluates to 1/prod(b_i-a_i) times the integral over the intervals; the order of the intervals, their orientation and any supplied value for them are irrelevant; parts of the model that do not use the parameter are unchanged; the average of a sum is the sum of the averages.',
 'all continuous models, any number of interval parameters, all intervals and other parameter values',
 'infinite family of models and nestings',
 ['src/elisa/util/integrate.py:make_integral_factory', M+':Model._compile_model_fn', PA+':ConstantInterval'])
p('C66','Absorption components are transmissions',
 'Every bin of an absorption component lies between 0 and 1, so that multiplying a model by it never adds photons; columns of the same gas add; interpolated cross sections agree with the table at its nodes and stay between neighbouring values; the power law absorption returns exact bin averages.',
 'all parameter values of the declared signs, all increasing positive grids, all tables',
 'continuum of parameters and grids',
 [MU+':Constant', MU+':Edge', MU+':ExpAbs', MU+':ExpFac', MU+':GAbs', MU+':HighECut', MU+':PLAbs', MU+':PhotonAbsorption'])
p('C67','The linear-logarithmic plot axis is a faithful scale',
  "For every base > 1, threshold > 0 and stretch > 0 that LinLogScale accepts, the axis transform is continuous and strictly increasing on the whole real line and its inverse undoes it in both directions; above the threshold every factor of base takes the same length and below it every unit takes the same length. The stretch computed by get_scale makes the linear part take up exactly the requested fraction of the axis. The ticks are strictly increasing and are exactly the linear locator's ticks below the threshold plus the logarithmic locator's ticks above it. As documented, with lin_scale = 1 the range [0, lin_thresh] takes the length of one decade.",
  'all bases, thresholds, stretches, data ranges, fractions and tick lists',
  'the identities hold for real values; a test can only sample finitely many points of a continuous map',
  ['src/elisa/plot/scale.py:LinLogTransform','src/elisa/plot/scale.py:InvertedLinLogTransform','src/elisa/plot/scale.py:LinLogLocator.tick_values','src/elisa/plot/scale.py:get_scale','src/elisa/plot/plotter.py:PlotConfig.lin_frac'])
p('C68','Kernel smoothing returns weighted means or NaN',
  "gaussian_kernel_smooth gives NaN at an evaluation point exactly when the total Gaussian weight there is below null_thresh, and otherwise the weighted mean of the data: within the range of the data, constants preserved, linear in the data, independent of the origin and unit of the abscissa. At the data's own abscissae it is never NaN for thresholds up to one. As documented, with the default threshold an estimate is returned up to about one sigma from the nearest datum.",
  'all data sets, widths, thresholds and evaluation points',
  'bounds and linearity are statements over all real data vectors',
  ['src/elisa/plot/util.py:gaussian_kernel_smooth'])
p('C69','Scaled colours are valid colours and gradients are ordered',
  "Scaling a colour succeeds exactly for a readable #RRGGBB string and a positive factor and returns a readable #RRGGBB string whose channels are the products cut to 0..255 and rounded down; factor one keeps the colour; a larger factor never darkens a channel. get_color_gradient returns exactly n colours, from factor_max to factor_min, no channel growing along the list, and rejects malformed colours and factors not satisfying 0 < factor_min < factor_max.",
  'all strings, factors and lengths',
  'unbounded input domain of strings and real factors',
  ['src/elisa/plot/util.py:_scale_color','src/elisa/plot/util.py:get_color_gradient','src/elisa/plot/util.py:_clip'])
p('C70','Numerical gradients of Python components',
  "For a component defined by a plain Python function, the value is unchanged by differentiation; the directional derivative is linear in the tangents; it is exact for components affine in each parameter (both methods) and quadratic (central); its error is at most M h^2/6 (central, M bounding the third derivative) or M h/2 (forward, M bounding the second), with h = |p| eps^(1/3) or |p| sqrt(eps) (|p| replaced by 1 at zero). Only 'central', 'forward' and None are accepted, and the gradient uses the method currently set on the component.",
  'all components, parameter vectors, tangents, step epsilons and histories of setting the method and evaluating',
  'error bounds quantify over all smooth functions; the history property over all sequences of operations',
  ['src/elisa/util/misc.py:define_fdjvp','src/elisa/models/model.py:PyComponent.grad_method','src/elisa/models/model.py:PyAnaInt.eval','src/elisa/models/model.py:PyNumInt.eval'])
p('C71','The unit cube of the nested samplers carries the prior',
  "A uniformly distributed cube coordinate, mapped as the nested samplers' models map it, has exactly the law of the parameter's prior (uniform, log-uniform, any transformed, expanded, masked or independent distribution, Bernoulli, categorical, and any distribution with a correct icdf); parameters stay within their bounds; averaging the likelihood over the cube equals averaging it over the joint prior, so the evidence is the model's evidence. Labels handed to the sampler name the coordinate they stand for.",
  'all priors of these kinds with valid arguments, all numbers of parameters, all likelihoods',
  'equality of probability laws and of integrals; cannot be established by sampling',
  ['src/elisa/infer/samplers/util.py:uniform_reparam_transform','src/elisa/infer/samplers/util.py:UniformReparam','src/elisa/infer/samplers/util.py:uniform_reparam_model','src/elisa/infer/samplers/ns/ultranest.py:UltraNestSampler.run','src/elisa/models/parameter.py:UniformParameter'])
p('C72','Bookkeeping of the parallel ensemble samplers',
  "Every draw of every walker of every sampler appears exactly once in the posterior, the walkers' chains one after the other; the progress listener ends exactly when every sampler has finished, under every interleaving of their messages, with every bar full; the process start method is left as found; given states are used without warm-up exactly when their number and shape match; parallel samplers get different seeds; every walker starts near the initial point and walkers start at different places; array parameters get unique names in row-major order.",
  'all numbers of samplers, walkers, steps, all interleavings of messages, all jitters, failures of samplers, all shapes',
  'interleavings and failure points are unbounded; tests exercise one schedule',
  ['src/elisa/infer/samplers/ensemble/base.py:EnsembleSampler.run','src/elisa/infer/samplers/ensemble/base.py:EnsembleSampler._progress_listener','src/elisa/infer/samplers/ensemble/emcee.py:EmceeSampler','src/elisa/infer/samplers/ensemble/zeus.py:ZeusSampler','src/elisa/infer/samplers/util.py:ravel_params_names','src/elisa/infer/fit.py:BayesFit._generate_result_from_numpyro'])

p('C73','Profile-likelihood intervals of composite parameters and functions',
  "A confidence interval asked for with the profile method is the set of values for which some parameter vector keeps the fit statistic within the requested rise of its minimum: for free parameters (whatever monotone map ties the bounded parameter to the unbounded search coordinate), and for composite parameters and user functions up to the documented tolerance rtol; the tolerance argument is validated and the search for a workable tolerance stays below its cap; the lower end is not above the upper end.",
  'all fit statistics, parameter spaces, functions, best fits, tolerances, levels',
  'quantifies over all statistics and functions; a test checks a few fits with one tolerance',
  [R+':MLEResult.ci',R+':MLEResult._ci_free',R+':MLEResult._ci_fn',R+':MLEResult._loss_factory',H+':get_helper'])
p('C74','Reported fluxes, luminosities and energies belong to the right model and parameters',
  "flux, lumin and eiso of a fit report exactly one entry per data set (or per component), and every entry - value, standard error, interval, errors, distribution - is that of the model (component) fitted to that data set and of the parameters the user asked for, in the requested unit; data sets sharing a model get identical entries; working with the logarithm does not change the interval.",
  'all lists of data sets, all assignments of models, all component names, all parameter overrides, both methods',
  'all name sets and sharing patterns; collisions only occur for unusual names',
  [R+':FitResult.__init__',R+':MLEResult._intensity_ci',R+':MLEResult._ci_boot',R+':MLEResult.flux',R+':MLEResult.lumin',R+':MLEResult.eiso'])
p('C75','Covariance matrices are propagated and selected correctly',
  "The covariance of the parameters and of user functions is the first-order propagation of the inverse Hessian (twice the inverse Hessian of the deviance), symmetric and positive semi-definite; the row and column of every requested parameter or function are its own, in the order of the names; from samples it is the unbiased sample covariance for any number of parameters, functions and samples.",
  'all Jacobians and Hessians, all selections of parameters and functions, all sample sizes and numbers of devices',
  'linear-algebra identities for every dimension, and index bookkeeping for every selection',
  [H+':get_helper',R+':MLEResult.__init__',R+':MLEResult.covar',R+':PosteriorResult.covar',R+':ParamsCovar'])
p('C76','Component settings take effect exactly when assigned',
  "The band, number of grid points and spacing of the flux-normalising convolutions, the integration method of numerically integrated components, and the abundance and cross-section tables of the absorption components can be assigned at any time: after any history of assignments and evaluations, the settings are those of the last accepted assignments, rejected assignments change nothing, every function obtained uses the settings in force when it was requested (whatever was cached), accepted settings are usable, and any valid band can be selected.",
  'all histories of assignments (accepted or rejected) and evaluations, all values including NaN and infinities',
  'cache soundness over all histories; tests exercise single assignments',
  ['src/elisa/models/conv.py:NormConvolution','src/elisa/models/model.py:NumericalIntegral','src/elisa/models/mul.py:PhotonAbsorption','src/elisa/models/mul.py:PhAbs','src/elisa/models/mul.py:TBAbs','src/elisa/models/mul.py:WAbs'])
p('C77','Repeated bootstraps and predictive checks are independent of history',
  "After any sequence of boot() (or ppc()) calls with any sizes, seeds, device numbers and caught exceptions, one more call succeeds exactly when it would have succeeded on a fresh result and leaves exactly the result a fresh one would hold (reuse of earlier simulations is unobservable); a failing call changes nothing; gof is that of the last successful simulation. Every posterior sample used downstream is one joint draw of all parameters, and the rows of a predictive check (replicated parameters, data, fits) belong together.",
  'all call histories, all seeds including none, all sizes and device numbers, all sets of valid fits',
  'unbounded call histories and failure points',
  [R+':MLEResult.boot',R+':PosteriorResult.ppc',R+':MLEResult.gof',R+':PosteriorResult.gof',R+':PosteriorResult._params_dist',R+':PPCResult'])
p('C78','Plots show the current simulation',
  "In any history of simulations and plots, every plotted quantity derived from the bootstrap or predictive check (model bands, signs, residuals and their bands) is computed from the simulation currently stored in the result, although these quantities are cached.",
  'all histories of simulations and plots, all arguments, all addresses the allocator may hand out',
  'depends on object lifetimes and address reuse; not reproducible by tests',
  ['src/elisa/plot/data.py:_cache_method_with_check','src/elisa/plot/data.py:MLEPlotData','src/elisa/plot/data.py:PosteriorPlotData'])

p('C79','Maximum-likelihood fits do not depend on earlier calls',
  "MaxLikeFit.mle starts the search from the values given in init (for free parameters; the last value given wins) and from the defaults otherwise; values for names that are not free parameters have no effect; an unknown method is rejected and leaves the fit as it was; the settings (max_steps, throw, verbose) of a call are those used in that call, for every method and after any history of earlier calls (including failed and interrupted ones), so that the outcome is that of a fresh fit object; method 'ns' polishes a sample of highest likelihood.",
  'all parameter tables, init mappings, histories of mle calls with any settings, failures and interruptions',
  'unbounded histories and interruption points; the cached optimisers make a retry differ from a first try',
  [F+':MaxLikeFit.mle',F+':MaxLikeFit._optimize_lm',F+':MaxLikeFit._optimize_ns',F+':Fit._check_init',H+':get_helper'])
p('C80','BlackJAX NUTS adapts during warm-up only',
  "A NUTS run through BlackJAX tunes step size and mass matrix during exactly the first warmup transitions and uses one final tuning afterwards; the mean acceptance it reports is the mean over the transitions of the current phase; resuming from a saved state continues with the tuning of that state and without further adaptation, whatever warmup is asked for.",
  'all kernels, targets, seeds, warm-up lengths, numbers of transitions and resumptions',
  'statement over all run lengths and all resumptions',
  ['src/elisa/infer/samplers/blackjax/nuts.py:BlackJAXNUTS','src/elisa/infer/fit.py:BayesFit.blackjax_nuts'])
p('C81','Chains start, resume and are recorded as asked',
  "A saved state is accepted by a sampler exactly if the same kind of sampler left it; otherwise the call is rejected. A chain starts from init if given, from the init_strategy if only that is given, and from the defaults otherwise. Whatever the thinning, each chain has exactly steps draws, the j-th after (j+1)*thinning transitions. The sampler statistics requested are all recorded.",
  'all kinds of samplers and states, all init mappings, all step numbers and thinnings',
  'all combinations of samplers, states and settings',
  [F+':BayesFit._run_numpyro_mcmc',F+':BayesFit.nuts',F+':BayesFit._generate_result_from_numpyro'])
p('C82','Credible intervals have the stated content',
  "PosteriorResult.ci gives, with hdi=False, an interval with equal tails around the median containing at least the stated share of the draws (up to one draw), growing with the level; with hdi=True, the shortest interval between draws with more than the stated share. Both are independent of the order of draws and of their division into chains, and follow a change of unit. The errors have the signs of lower and upper errors; the same holds for user functions and fluxes.",
  'all posteriors, levels, numbers of chains, functions',
  'optimality over all competing intervals and content for all samples',
  [R+':PosteriorResult.ci',R+':PosteriorResult._ci_fn',R+':PosteriorResult.flux'])
p('C83','LOO-PIT values are leave-one-out probabilities',
  "The pair of LOO-PIT values of a channel lies in [0, 1], is ordered, and brackets: the upper value is the leave-one-out predictive probability of a replicate not above the datum and the lower one that of a replicate strictly below it (the next smaller attainable datum); leave-one-out expectations are weighted means for quantities of any sign; every data set gets the values of its own channels.",
  'all data, weights, replicate sets, statistics and background ratios',
  'identities for every weight vector and every replicate set',
  [R+':PosteriorResult._loo_pit',R+':PosteriorResult._loo_expectation'])

p('C84','Stored posteriors describe the right data sets and parameters',
  "In the result of a Bayesian fit, log_likelihood['channels'] and ['total'] (which LOO and WAIC read) are the log-likelihoods of all channels in order and their sum; the entry named like a data set, and those with _Non, _Noff and _total appended, are that data set's; the deviance table has exactly one row per data set plus the total; the effective sample sizes are those of the parameters; the relative efficiency is the effective sample size per draw; the Pareto table counts every channel once, in the range printed.",
  'all lists of data sets with distinct names, with and without background, all parameters, all samplers',
  'holds or fails depending on names; quantifies over all name sets',
  [F+':BayesFit._generate_results',F+':BayesFit._get_ess',F+':BayesFit.nautilus',F+':BayesFit.ultranest',F+':BayesFit.jaxns',R+':PosteriorResult.deviance',R+':PosteriorResult.ess',R+':PosteriorResult.reff',H+':get_helper'])

p('C85','The resolution of a response is its full width at half maximum',
  "ResponseData.fwhm of a photon energy is the distance in channels between the nearest channels on the two sides of the (first) peak where the response is at or below half its maximum; twice the distance to the one side if the response falls to half only at one end of the channels; -1 if at neither; 1 if there is no response. It does not depend on the unit of the response. ResponseData.channel_fwhm gives each channel the value of the photon bin its mid energy is in, or the nearest bin. Optimal binning uses narrower bins where there are more counts, whatever the response.",
  'all response matrices, photon grids and channel ranges, all counts',
  'statement over all rows of any length',
  [B+':ResponseData.fwhm',B+':ResponseData.channel_fwhm',G+':_calc_optimal_binning'])

p('C86', 'Simulated observations follow the model',
  'simulate returns an observation whose background counts are drawn first with the given means and whose source counts are then drawn with mean folded model x exposure x area scale + (source/background scaling) x background mean, with the given energies, response, quality and grouping; grouping and filtering such an observation in any way, the expected counts of a group are what a fit of the same model expects there; simulate_from_data reproduces the response, good channels, scales, kind of counts, grouping and energy ranges of the data, with the exposures asked for, and succeeds for every legal observation.',
  'every model, parameter vector, response, exposures, scales, background, quality and grouping, every later grouping and filter, every generator state',
  'The space of responses, scales, flags and generator states is infinite, and the claim is about expected values rather than about one draw.',
  [M + ':CompiledModel.simulate', M + ':CompiledModel.simulate_from_data'])

p('C87', 'A parameter slot holds what was assigned to it',
  'Assigning a value to a parameter of a component (component.name = value or component[name] = value) either raises and changes nothing, or leaves the slot holding one parameter and every other slot and every other parameter as it was. A parameter object is shared as it is; None restores the declaration; a number within the declared bounds fixes the parameter at exactly this number; a mapping or a sequence of length 1, 3 or 4 makes a parameter with exactly the default, bounds, scale and flag asked for (a free default on a bound is moved inside by at most 1e-10 of the width); accepted exactly when min < max, min <= default <= max, and min > 0 on a logarithmic scale. A flag left out means the declared one, labels of other slots do not change, and misspelt keys are errors.',
  'every history of component creations, deletions, parameter creations and assignments, every declared configuration and every value assigned, NaN and infinities included, every rounding',
  'All histories, all values and all roundings.',
  [M + ':_param_setter', M + ':Component', M + ':ParamConfig'])

p('C88', 'Calling a component class fills its slots as the signature says',
  'Calling a component class raises TypeError exactly when the arguments do not fit its signature (extra arguments, declared parameters in declared order, latex, extra keywords); otherwise it succeeds exactly when every declared parameter receives an acceptable value by position or keyword, or none, and every slot of the new component then holds what its parameter received, no other component or parameter being changed. A call that raises has no effect. Components can be subclassed.',
  'every component class, every list of positional and keyword arguments, every reachable state of other components and parameters',
  'All signatures, all calls and all histories before them.',
  [M + ':ComponentMeta', M + ':Component.__init__'])

p('C89', 'The value and errors shown are the ones computed',
  'The titles of a corner plot show the median and the errors of each parameter: the number shown, times the power of ten shown, differs from the value by at most half a unit of the last digit of the precision asked for; each error likewise, with its own sign, and an error that is not zero is never shown as zero. Every value has a title, zero included.',
  'every value, interval, precision and choice of thresholds, every rounding to nearest',
  'All numbers and precisions; carries of the significand into the next decade are rare.',
  [U + ':report_interval', 'src/elisa/plot/misc.py:plot_corner'])

p('C90', 'A batch of parameters gives the batch of results',
  'CompiledModel.eval (and ne, ene, eene, ce, flux) on an array of parameters of shape (..., number of parameters), or on a mapping of names to arrays of one shape, gives results of the leading shape whose element idx is the result for the parameters at idx; arrays with another last axis, mappings without any known name and mappings of known names to arrays of different shapes are refused. ce is the model folded through the response per channel width, in total and by component, and is refused for models that are not additive.',
  'every model, every shape and number of dimensions, every mapping, every response and grid',
  'All shapes and all models; nested mapping over any number of axes.',
  [M + ':CompiledModel._prepare_eval', M + ':CompiledModel.eval', M + ':CompiledModel.ce'])

p('C91', 'A component of XSPEC gets the values of its own parameters and keeps its energy grid',
  'An XSPEC component passes the value of every slot to XSPEC in XSPEC order (an additive one multiplies by its normalisation); its slots are usable as attribute names and carry the default, bounds and frozen state XSPEC declares. The derivative method can be one of two and is the one used. A convolution component is evaluated on the energy grid of the data extended to the configured range by the configured number of bins, refuses energies outside that range, and returns exactly one value for each bin of the data, of that bin.',
  'every XSPEC model description, parameter values, energy grid, extension and convolution kernel',
  'All model descriptions, grids and extensions.',
  ['src/elisa/models/xs.py:XspecAdditive', 'src/elisa/models/xs.py:XspecConvolvedModel', 'src/elisa/models/xs.py:_generate_xspec_models'])

p('C92', 'Spectra and bands are drawn bin by bin',
  'A plotted spectrum shows every bin once, with its value from its left to its right edge and nothing else; lines are broken exactly where two bins do not touch; bands are drawn in the same way. The unfolded spectrum shows the photon bins inside the noticed energies. Limits of a logarithmic axis are positive, contain the maximum and span at most the configured number of decades.',
  'every list of bins in any order, every number of bands, every photon grid and noticed range, every range of values',
  'All arrangements of gaps in the channels.',
  ['src/elisa/plot/plotter.py:_plot_step', 'src/elisa/plot/plotter.py:_plot_ribbon', 'src/elisa/plot/plotter.py:_adjust_log_range', 'src/elisa/plot/data.py:PlotData.photon_egrid'])

p('C93', 'Bands hold the stated share and marks are outside the widest band',
  'A band of level cl holds the stated share of the simulated values of its channel (symmetric if signs are ignored), bands are nested, levels may be given in any order; a residual is marked exactly when it is outside the band of the highest level; without simulations bands are those of a standard normal variable. The curve and band of an unfolded model use the parameters given in place of the estimates, and the curve of a posterior lies in its band.',
  'every sample, every number of channels and levels, every residual, every replacement of parameters',
  'All samples and levels; probability statements.',
  ['src/elisa/plot/data.py:MLEPlotData.residuals_ci', 'src/elisa/plot/data.py:MLEPlotData.unfolded_model', 'src/elisa/plot/data.py:PosteriorPlotData.unfolded_model', 'src/elisa/plot/plotter.py:Plotter.plot_residuals', 'src/elisa/plot/plotter.py:PlotConfig.cl'])

p('C94', 'Diagnostic plots show what their axes say',
  'A Q-Q plot shows every residual once against the theoretical quantile of its rank; its band holds the k-th smallest residual with the stated probability (or the stated share of simulations). The PIT-ECDF plot shows at each rank the share of transforms that do not exceed it, and for uniform transforms it is in the band with at least the stated probability. Detrending changes neither. The goodness-of-fit curve is the share of simulations that reach a deviance and the text is the p-value. The panel total shows all data sets.',
  'every residuals, transforms, simulations and number of data sets; every probability level',
  'Probabilities over all outcomes, all sample sizes.',
  ['src/elisa/plot/plotter.py:_get_qq', 'src/elisa/plot/plotter.py:_get_pit_ecdf', 'src/elisa/plot/plotter.py:Plotter.plot_gof', 'src/elisa/plot/plotter.py:Plotter.plot_qq'])

p('C95', 'The plots asked for are the plots shown',
  'A request is read as words separated by white space; a request with an unsupported word is refused; otherwise each figure and each panel of the spectral figure is made exactly when asked for, labelled as asked, with the residuals of the type asked for; plots that need simulations are refused without them. Fluxes in Jy are converted with the right factor.',
  'every request string, both kinds of result, with and without simulations',
  'All request strings and combinations of words.',
  ['src/elisa/plot/plotter.py:MLEResultPlotter.__call__', 'src/elisa/plot/plotter.py:PosteriorResultPlotter.__call__', 'src/elisa/plot/plotter.py:Plotter.plot_spec'])

p('C96', 'A Data object is assembled from the files asked for',
  'Data(...) reads the spectrum, background, response and ancillary files given as arguments, and the files named in the header of the spectrum for those not given; file{n} means row n of a type II spectrum file or matrix n of a response file. Row n of a type II file gives the same data as a type I file with this row alone. Missing names, missing responses, missing files and rows that do not exist are refused; otherwise the object is created, with the spectrum selected and the name given.',
  'every content of the file system, every combination of arguments and header entries',
  'All file contents, paths and combinations of arguments and headers.',
  ['src/elisa/data/ogip.py:Data', 'src/elisa/data/ogip.py:Spectrum', 'src/elisa/data/ogip.py:Response'])

p('C97', 'The statistic of a fit follows from the files',
  'For data sets loaded from files, whatever calls of set_erange, set_grouping and group were made on them, and every statistic the fit accepts: the statistic reported for a model is the sum, over the groups of channels in use, of minus twice the log of a likelihood ratio, that of the counts, variances, exposures, scales, quality flags, redistribution matrix and effective area stored in these files, and of the photons of the model in the energy bins of the response.',
  'every content of the files, every combination of arguments and headers, every history of calls, every statistic and every model flux in the numerical range, any number of data sets',
  'The property spans reading, grouping, folding and the likelihood, for all files and all histories of calls.',
  ['src/elisa/data/ogip.py:Data', 'src/elisa/data/base.py:ObservationData', 'src/elisa/infer/fit.py:Fit', 'src/elisa/infer/likelihood.py'])

p('C98', 'Residuals of a posterior are leave-one-out averages',
  'The deviance residual of a channel of a posterior fit has the leave-one-out mean of the deviances of the draws as its square, and the sign of the net counts minus the leave-one-out mean of the model; the size of its Pearson residual is the leave-one-out mean of the sizes for the draws; both equal the residuals of the model when all draws agree. Quantile residuals are finite, and flagged as limits exactly when no or every prediction lies below the data. Residuals of the maximum likelihood model are returned when asked for.',
  'every statistic, data set, number of draws, importance weights and fluxes in the numerical range, every random number',
  'All data sets, draws and weights.',
  ['src/elisa/plot/data.py:PosteriorPlotData', 'src/elisa/infer/results.py:PosteriorResult._loo_expectation'])
p('C99', 'Plots show the simulations in force',
  'After new bootstrap or posterior predictive simulations were run, every quantity of a plot that depends on them is computed from the new simulations, not from earlier ones.',
  'every history of simulation runs and plots, every assignment of memory addresses Python may make',
  'It depends on the history of runs and plots and on the reuse of memory addresses.',
  ['src/elisa/plot/data.py:_cache_method_with_check', 'src/elisa/plot/data.py:PlotData.__init__', 'src/elisa/plot/data.py:MLEPlotData', 'src/elisa/plot/data.py:PosteriorPlotData'])

p('C100', 'Plot settings are always usable',
  'The settings of a plot accept exactly the values the documentation allows, and hold valid settings after any history of assignments, accepted or refused. Reading the colours of a plotter gives the colours last chosen for all data sets, unless they were reset, and otherwise one colour per data set from the palette in the settings; markers differ between data sets; the total number of data is the sum over data sets.',
  'every argument list, every history of assignments, palette changes, colour choices, resets and reads, every number and naming of data sets',
  'The property is about all histories of assignments and about all argument values, including NaN and infinities.',
  ['src/elisa/plot/plotter.py:PlotConfig', 'src/elisa/plot/plotter.py:Plotter.set_colors', 'src/elisa/plot/plotter.py:Plotter.colors', 'src/elisa/plot/plotter.py:Plotter.ndata', 'src/elisa/plot/util.py:get_colors', 'src/elisa/plot/util.py:get_markers'])

p('C101', 'Components of a model cannot be lost, replaced or mistyped',
  'After a model is built, every component is found under its name (model.Name and model["Name"]) whatever is assigned or deleted; assigning to a component or to a name that does not exist raises AttributeError, so does every deletion; no attribute appears or disappears. The same holds for components (a misspelt parameter is refused, an accepted assignment changes only the attribute named), and compiled models never change. A class with a tuple of parameter declarations is accepted exactly if the declarations and static methods are legal.',
  'every history of assignments and deletions of attributes, every class body',
  'It must hold after every sequence of assignments and deletions.',
  ['src/elisa/models/model.py:Model.__setattr__', 'src/elisa/models/model.py:Model.__delattr__', 'src/elisa/models/model.py:Model.__getitem__', 'src/elisa/models/model.py:CompiledModel.__setattr__', 'src/elisa/models/model.py:Component.__setattr__', 'src/elisa/models/model.py:ComponentMeta.__new__'])

p('C102', 'Saved results are loaded as they were saved',
  'After any history of saves, complete or interrupted at any byte, loading a file with the algorithm of the last save gives the result of that save if it was complete; with another algorithm, or if the file is cut off, loading raises or gives that same result, never an older or different one. An unsupported algorithm raises ValueError and changes no file. An interrupted save leaves the result saved before.',
  'every history of saves to any paths with any algorithms, every crash point within a save',
  'It ranges over all crash points and histories.',
  ['src/elisa/infer/results.py:FitResult.save', 'src/elisa/infer/results.py:FitResult.load'])

p('C103', 'Posterior summaries',
  'The mean, the standard deviation and the best draw of a posterior are those of all draws: the mean lies within the draws and does not depend on how they are split over chains, the standard deviation is zero exactly if all draws agree and both follow a change of unit, the deviance reported for the best fit is that of the parameters reported and not larger than that of any draw, and the number of divergences is available for every sampler. A function of the parameters that returns a parameter has the summary of that parameter.',
  'every number of chains and draws, every draw values, every sampler output',
  'It ranges over all posteriors.',
  ['src/elisa/infer/results.py:PosteriorResult.mean', 'src/elisa/infer/results.py:PosteriorResult.std', 'src/elisa/infer/results.py:PosteriorResult.deviance', 'src/elisa/infer/results.py:PosteriorResult.divergence', 'src/elisa/infer/results.py:PosteriorResult._mle'])

p('C104', 'A Gaussian line carries its photon flux',
  'The Gaussian line is the documented profile: its photon flux over all energies is K, it peaks at the line energy and is symmetric. The values of the bins of a grid add up to the flux of the line in the range of the grid, whatever the width of the line. The thermal synchrotron component is positive, decreases with energy, is K at zero energy and K/e at Ec.',
  'every line energy, width, flux and energy grid',
  'It is about integrals over all energies and all grids, including the limit of narrow lines.',
  ['src/elisa/models/add.py:Gauss.continuum', 'src/elisa/models/add.py:OTTS.continuum', 'src/elisa/models/model.py:NumericalIntegral'])

p('C105', 'Process-wide settings survive sampling runs',
  'After any history of sampling runs, bootstraps and predictive checks, whether they raised or not, the multiprocessing start method, the Pool class of nautilus, the random state of NumPy and the JAX flag for merging are what they were before; a run of UltraNest does not depend on the random state of the process.',
  'every history of runs with every outcome, every prior state of the process',
  'It ranges over all histories and failure points.',
  ['src/elisa/infer/samplers/ns/ultranest.py', 'src/elisa/infer/samplers/ns/nautilus.py:NautilusSampler.__init__', 'src/elisa/infer/samplers/ensemble/base.py:EnsembleSampler.run', 'src/elisa/util/config.py:jax_pmap_shmap_merge'])

p('C106', 'Evidence and effective sample size of nested sampling',
  'The result of a nested sampling run reports the draws, the effective sample size for every parameter, and the evidence with its error that the sampler found, whether the run is new or read from the log of an earlier run; a run that did not reach its goal raises.',
  'every sampler, every outcome of a run, every list of parameters',
  'It ranges over all sampler outputs.',
  ['src/elisa/infer/fit.py:BayesFit.jaxns', 'src/elisa/infer/fit.py:BayesFit.nautilus', 'src/elisa/infer/fit.py:BayesFit.ultranest', 'src/elisa/infer/results.py:PosteriorResult.lnZ'])

p('C107', 'The plot of the effective area shows the effective area',
  'The effective area of a photon bin is the response summed over the channels of good quality (zero if negative), a wrong number of flags raises ValueError, the curve shows over every photon bin the area of that bin, and exactly the photon bins outside the noticed ranges are hatched.',
  'every response matrix, photon grid, flags and list of noticed ranges in order',
  'It ranges over all responses, grids and ranges.',
  ['src/elisa/data/base.py:ResponseData.plot_effective_area'])

p('C108', 'The plot of the response matrix shows every channel at its energy',
  'Whatever gaps there are between the channels, or arise by leaving out bad channels, every channel is drawn over its own energy range with its own column of the response and gaps are left empty; a wrong number of flags raises ValueError; exactly the channels outside the noticed ranges are hatched.',
  'every list of channels with any gaps, every flags, every noticed ranges in order',
  'It ranges over all positions and numbers of gaps.',
  ['src/elisa/data/base.py:ResponseData.plot_matrix'])

p('C109', 'The plot of a spectrum shows the spectrum',
  'Every noticed group is drawn as a bar over its own energy range with its rate and its error: source, background and net counts over exposure and bin width, with the background scaled to the source; the significance drawn is zero when there is no excess, positive when there is one and finite.',
  'every observation, with and without background, every grouping and range, every counts and errors',
  'It ranges over all spectra, groupings and backgrounds.',
  ['src/elisa/data/base.py:ObservationData.plot_spec', 'src/elisa/data/grouping.py:significance_lima', 'src/elisa/data/grouping.py:significance_gv'])

p('C110', 'The displayed name of a model denotes the model',
  'Read with ordinary precedence, the name of a model can be read in exactly one way and denotes the model the user built; the LaTeX label shows the same expression; turning component ids into names renames every component and touches nothing else.',
  'every model however nested, every component names, every ids and every order of replacement',
  'It ranges over all expression trees, names and ids.',
  ['src/elisa/models/model.py:CompositeModel.__init__', 'src/elisa/models/model.py:ConvolvedModel.__init__', 'src/elisa/models/model.py:Model._id_to_label'])

p('C111', 'The posterior of a flux is the flux of the posterior',
  'flux, lumin and eiso of a posterior report the statistics of the fluxes of the draws in the unit asked for: mean, standard deviation, median, equal-tailed interval, errors relative to the median with the right signs; values given by the user replace those of the draws; the fluxes of the components of a model add up to the flux of the model.',
  'every posterior sample, level, unit, values given by the user, every model with any number of components',
  'It ranges over all samples, levels and models.',
  ['src/elisa/infer/results.py:PosteriorResult._intensity_ci', 'src/elisa/infer/results.py:PosteriorResult._ci_fn', 'src/elisa/infer/results.py:PosteriorResult.flux'])

p('C112', 'The label of a unit shows the unit',
  'In the label of a unit one reads exactly the bases of the unit, each once with its own power, after its scale; no unit gives no label and an invalid one raises or gives no label; two parameters share a label in a plot only if component, parameter and unit are labelled the same.',
  'every unit with any bases, powers and scale, every order of the bases in the text, every component and parameter labels',
  'It ranges over all units and labels.',
  ['src/elisa/util/misc.py:get_unit_latex', 'src/elisa/plot/plotter.py:Plotter.params_labels'])

p('C113', 'Quantile residuals of Poisson data are standard normal',
  'For Poisson data and the true model the quantile residuals with noise are standard normal variates, whatever the mean; they are finite also where a tail probability underflows to zero; with keep_sign they have the sign of data minus model and the same magnitude; without noise the residual is the normal quantile of the probability of at most the observed counts.',
  'every positive mean, every count, every uniform variate, every value of the residual, any computed tail probabilities below one',
  'A statement about a distribution over infinitely many counts and continuous noise, for every mean.',
  ['src/elisa/plot/residuals.py:quantile_residuals_poisson', 'src/elisa/plot/residuals.py:pit_poisson', 'src/elisa/plot/data.py:MLEPlotData.quantile_residuals_mle'])

p('C114', 'Components without a closed integral have the documented shape',
  'CutoffPL, Compt, OTTB and BentPL are positive, have the documented normalisation and local slope at every energy (which fixes the function), E^2 N(E) of the cut-off power law peaks at (2-alpha)Ec, and Edge, ExpAbs, ExpFac and HighECut have the documented optical depth below and above their thresholds.',
  'every energy and every parameter value',
  'It ranges over all real energies and parameters.',
  ['src/elisa/models/add.py:CutoffPL', 'src/elisa/models/add.py:Compt', 'src/elisa/models/add.py:OTTB', 'src/elisa/models/add.py:BentPL', 'src/elisa/models/mul.py:Edge', 'src/elisa/models/mul.py:ExpAbs', 'src/elisa/models/mul.py:ExpFac', 'src/elisa/models/mul.py:HighECut'])

p('C115', 'Names of data sets and parameters keep their values apart',
  'Whatever the names given to data sets and parameters, the result of a fit, the counts and the simulated data reported under a name are those of the data set or parameter of that name, and a simulated data set is fitted with its own counts.',
  'every set of data-set names and parameter names, every statistic of each data set, every order of evaluation, all values',
  'It ranges over all combinations of names; the clashes need names the author did not think of.',
  ['src/elisa/infer/helper.py:get_helper', 'src/elisa/infer/likelihood.py:chi2', 'src/elisa/infer/likelihood.py:pgstat', 'src/elisa/infer/likelihood.py:wstat'])

p('C116', 'N(E), E N(E), E^2 N(E) and band fluxes of a model are what their names say',
  'In each bin ne reports the continuum at some energy of the bin, ene and eene that value times E and E^2 (in erg) with E inside the bin; E^2 N(E) of an index-2 power law is exactly flat; the spectra of components add up to that of the model; the photon flux is the sum of the bins and the energy flux lies between emin and emax times it; non-additive models and absent components are refused.',
  'every continuous continuum, grid, bin, band, number of grid points and set of components',
  'It ranges over all continua and grids.',
  ['src/elisa/models/model.py:CompiledModel.ne', 'src/elisa/models/model.py:CompiledModel.ene', 'src/elisa/models/model.py:CompiledModel.eene', 'src/elisa/models/model.py:CompiledModel.flux'])

p('C117', 'Runs of the ensemble samplers are reproducible, can be continued and are thinned as asked',
  'With the same seed an ensemble run gives the same draws in every process; a run continued from the states it returned is the uninterrupted run draw for draw; warm-up steps are discarded and every thinning-th step is stored; with ignore_nan a NaN log-probability is below all others; the directions of the zeus move are along lines through two different walkers, all ordered pairs being equally likely, whatever numbers of walkers were used before.',
  'every number of samplers, warm-up steps, draws and thinning, every library step function, every process, every history of moves',
  'It ranges over all chain lengths, processes and histories.',
  ['src/elisa/infer/samplers/ensemble/emcee.py:EmceeSampler', 'src/elisa/infer/samplers/ensemble/zeus.py:ZeusSampler', 'src/elisa/infer/samplers/ensemble/zeus.py:DifferentialMove', 'src/elisa/infer/samplers/ensemble/base.py:EnsembleSampler.run', 'src/elisa/infer/fit.py:BayesFit.emcee', 'src/elisa/infer/fit.py:BayesFit.zeus'])

p('C118', 'WAIC is the widely applicable information criterion of all channels',
  'PosteriorResult.waic is the sum over the channels of all data sets of -2 (log mean likelihood - variance of the log-likelihood), over the draws of all chains; it is the sum of the criteria of the data sets; it does not depend on the order of draws or chains; its effective number of parameters is not negative and is zero when all draws agree, in which case the criterion is the deviance; it is at most the mean deviance plus twice the effective number of parameters; terms of the log-likelihood which do not depend on the parameters shift it by the same constant for every model; a warning is given exactly when a variance exceeds 0.4.',
  'every number of chains, draws, data sets (whatever their names) and channels, every log-likelihood values',
  'It ranges over all posterior samples; a test checks one sample.',
  ['src/elisa/infer/results.py:PosteriorResult.waic', 'src/elisa/infer/fit.py:BayesFit._generate_results', 'src/elisa/infer/helper.py:get_helper'])

p('C119', 'Fit statistics are convex in the source counts and in the amplitudes of the components',
  'With any statistic (the profiled backgrounds of wstat and pgstat included) the deviance of a channel is a convex function of the expected source counts, and grows strictly on either side of the net counts. The total fit statistic of any number of data sets is a convex function of the amplitudes of the components of the model, so that a local minimum in the amplitudes is a global one.',
  'every statistic, all data the statistic can be used on, all source counts, every number of data sets, channels and components, all amplitudes for which the code clips nothing',
  'It ranges over a continuum of data and amplitudes.',
  ['src/elisa/infer/likelihood.py:wstat_background', 'src/elisa/infer/likelihood.py:pgstat_background', 'src/elisa/infer/likelihood.py:wstat', 'src/elisa/infer/likelihood.py:pgstat', 'src/elisa/infer/likelihood.py:cstat', 'src/elisa/infer/likelihood.py:chi2', 'src/elisa/infer/helper.py:get_helper'])

p('C120', 'At a best fit the expected counts add up to the observed counts',
  'When data sets are fitted with cstat or wstat and no common rescaling of the component amplitudes improves the fit, the counts the fit expects, summed over all channels of all data sets (the profiled background regions included with wstat), equal the counts observed there.',
  'every number of data sets, each with cstat or wstat, all data the statistic can be used on, all amplitudes for which the code clips nothing near the best fit',
  'It ranges over a continuum of data and amplitudes; a test can only check one fit to the precision of the optimiser.',
  ['src/elisa/infer/likelihood.py:cstat', 'src/elisa/infer/likelihood.py:wstat', 'src/elisa/infer/likelihood.py:wstat_background', 'src/elisa/infer/helper.py:get_helper'])

p('C121', 'Error bars of on/off counts are likelihood-ratio intervals',
  'The lower and upper ends wstat_errors reports for a channel with counts are exactly the ends of the set of non-negative source counts which, for some background, are no more than exp(-delta/2) times less likely than the most likely ones. delta is 1 for positive net counts; otherwise the channel is flagged, its lower end is zero, and delta is the level a squared standard normal variable stays below with the probability given for upper limits (get_delta, the square of get_sigma).',
  'all on counts (whole numbers), off counts, exposure ratios and confidence levels, every root finder which finds an existing root from a finite starting value',
  'It ranges over a continuum of counts and ratios, and says which set an interval is, not what it is for one example.',
  ['src/elisa/plot/errorbars.py:wstat_errors', 'src/elisa/plot/errorbars.py:wstat', 'src/elisa/plot/errorbars.py:get_delta', 'src/elisa/plot/errorbars.py:get_sigma'])

p('C122', 'Trimming empty rows off a response keeps the folded counts',
  'Response._drop_zeros removes the energy bins without response from a matrix together with their energies: the energies and rows it returns belong together, and every spectrum folded with them gives the counts it gave before.',
  'all energy grids and matrices, every position of the empty rows, all spectra and channels',
  'It ranges over all matrices and all patterns of empty rows.',
  ['src/elisa/data/ogip.py:Response._drop_zeros'])

p('C123', 'Coarser grouping never increases the fit statistic at given parameters',
  'When the same observation is fitted in two groupings with the same energy ranges, and every group boundary of the second is one of the first, then for any model fluxes the total statistic in the second grouping is not larger than in the first: merging channels can only lose discrepancies between data and model.',
  'all observations, energy ranges, pairs of groupings one of which refines the other, every statistic and all fluxes for which the code clips nothing',
  'It ranges over all pairs of groupings of all spectra and a continuum of fluxes.',
  ['src/elisa/data/base.py:ObservationData.set_grouping', 'src/elisa/data/base.py:ObservationData.get_fixed_data', 'src/elisa/infer/likelihood.py:chi2', 'src/elisa/infer/likelihood.py:cstat', 'src/elisa/infer/likelihood.py:wstat', 'src/elisa/infer/likelihood.py:pgstat', 'src/elisa/infer/likelihood.py:pstat'])

p('C124', 'The fit statistic has the gradient its residuals say',
  'Where the fluxes depend differentiably on a parameter, so does the total statistic of a fit of any number of data sets with any statistics, the profiled backgrounds of wstat and pgstat included. Its derivative is the sum over all channels of 2 (expected - observed) / expected counts (for chi2: / variance), as recorded by the fit, times the derivative of the folded source counts. At a best fit away from bounds the sum is zero, for every parameter and for the amplitude of every component.',
  'every number of data sets, every statistic, all data it can be used on, all differentiable dependences of the fluxes on a parameter for which the code clips nothing nearby',
  'It ranges over a continuum of data and models; gradient-based optimisers and samplers rely on it at every point, also where the profiled background switches between branches of its formula.',
  ['src/elisa/infer/likelihood.py:chi2', 'src/elisa/infer/likelihood.py:cstat', 'src/elisa/infer/likelihood.py:pstat', 'src/elisa/infer/likelihood.py:pgstat', 'src/elisa/infer/likelihood.py:wstat', 'src/elisa/infer/likelihood.py:wstat_background', 'src/elisa/infer/likelihood.py:pgstat_background', 'src/elisa/infer/helper.py:get_helper'])

p('C125', 'Components of a fit have distinct names that tell their data sets',
  'Whatever suffix configuration has been set, every component of a fit has its own name; the name of a component that is not used for all data sets lists exactly the data sets it is used for. A configuration that cannot be used is refused and leaves the one in force.',
  'every sequence of suffix configurations, accepted or refused, every list of data set names, every list of components and every assignment of components to data sets',
  'Collisions need particular names or templates: a handful of configurations in a test do not show that no accepted one makes two parameters share a name.',
  ['src/elisa/util/misc.py:set_suffix_config', 'src/elisa/util/misc.py:add_suffix', 'src/elisa/util/misc.py:build_namespace', 'src/elisa/infer/fit.py:Fit.__init__'])

p('C126', 'The statistics agree where their assumptions agree',
  'For the same data and model: treating the background as exactly known (pstat) never gives a smaller statistic than profiling it (pgstat, wstat), and the difference is bounded by the variance of the background scaled to the source region times the squared relative misfit, so it vanishes as the background gets better known. Larger background errors never increase pgstat. With no background counts pstat is cstat. Without background chi2 with errors sqrt(n) and cstat differ by a term that vanishes with the counts at a given number of sigma.',
  'all data sets the statistics can be used on, all channels, all source models for which nothing is clipped',
  'The comparison is an inequality over a continuum of counts, ratios, errors and models; a test evaluates single points.',
  ['src/elisa/infer/likelihood.py:chi2', 'src/elisa/infer/likelihood.py:cstat', 'src/elisa/infer/likelihood.py:pstat', 'src/elisa/infer/likelihood.py:pgstat', 'src/elisa/infer/likelihood.py:wstat'])

p('C127', 'Best-fit amplitudes are unique where the data can tell the components apart',
  'Two best fits of the amplitudes of the components predict the same source counts in every informative channel (any channel for chi2, channels with counts for the Poisson statistics, with counts in both regions for wstat). If no combination of components is invisible in these channels, the best-fit amplitudes are unique.',
  'every number of data sets, every statistic, all data it can be used on, all components and all amplitudes for which nothing is clipped',
  'Uniqueness is a statement about all pairs of amplitudes; an optimiser run finds one.',
  ['src/elisa/infer/likelihood.py:chi2', 'src/elisa/infer/likelihood.py:cstat', 'src/elisa/infer/likelihood.py:pstat', 'src/elisa/infer/likelihood.py:pgstat', 'src/elisa/infer/likelihood.py:wstat', 'src/elisa/infer/helper.py:get_helper', 'src/elisa/infer/fit.py:MaxLikeFit.mle'])

p('C128','The tables shown for a fit and its result agree with the result','The tables a user reads from a fit or a maximum likelihood result say what the result holds: each data set has one row with its own model, statistic, value and number of channels; the totals, degrees of freedom and information criteria are those of the whole fit; each parameter has one row with its own value and error; values are shown to the stated precision, so the rows add up to the total up to rounding. A maximum likelihood fit lists bounds, a Bayesian fit priors.','all lists of data sets with distinct names, all values of the statistics, all parameter lists, values and errors, all formatting functions that round to nearest','A test shows the table of one fit; that no list of data set or parameter names and no values make the table pair a name with the wrong value is a statement about all of them.',['src/elisa/infer/results.py: MLEResult._tabs, MLEResult.mle, MLEResult.deviance','src/elisa/infer/fit.py: Fit._make_info_table','src/elisa/infer/helper.py: ndata, dof'])

p('C129','The order of the data sets does not matter','Giving the data sets of a fit in another order, each with its own model and statistic, is accepted exactly when the original order is, refused with the same kind of error otherwise, and pairs every data set with the same model and statistic; for given model spectra every data set contributes the same terms, and the total statistic, the degrees of freedom, AIC and BIC are the same. Only the names of components fitted to some of the data sets follow the order given.','all lists of data sets, models and statistics, all permutations, all ways to give one model or statistic for all','A test permutes one pair of data sets; the claim is about all permutations of all lists, including the refused ones.',['src/elisa/infer/fit.py: Fit._parse_input, Fit.__init__','src/elisa/infer/helper.py: get_loglike, deviance','src/elisa/infer/results.py: aic, bic'])

p('C130','The fit statistic has no jumps and a best fit exists','For usable data and for every statistic, the total statistic can be computed at all parameter values and changes continuously with the parameters if the model spectra do, also where fluxes are clipped and where the profiled background changes its formula. If the parameters range over a compact set (closed bounds) a best fit exists, and so do the extreme values of every continuous function of the parameters over each confidence region. With open bounds, as the sampler uses, there may be none.','all data sets, statistics, parameter spaces and continuous models','Continuity at every point and the existence of a minimum are statements about all real parameter values; a test evaluates finitely many.',['src/elisa/infer/likelihood.py: chi2, cstat, pstat, pgstat, wstat, pgstat_background, wstat_background','src/elisa/infer/helper.py: deviance'])

p('C131','Deviance residuals and Pearson residuals of a fit agree within stated bounds',
 'For every fit whose expected counts are inside the clipping limits, the two kinds of residuals that can be plotted for a channel are never of opposite sign, and the square of the deviance residual is at most twice the square of the Pearson residual. With chi2 they are the same number. With cstat and pstat the squares differ by at most the fraction |n-mu|/(n+mu) of the Pearson one, the deviance being larger below the model and smaller above it. (With wstat, for channels with off counts.)',
 'every statistic, data set, model prediction and channel',
 'it is an inequality between two real-valued functions of all counts, background counts, errors and predictions',
 ['src/elisa/plot/data.py: FitPlotData.deviance_residuals_mle/pearson_residuals_mle','src/elisa/infer/likelihood.py: _chi2/_cstat/_pstat/_pgstat/_wstat, pearson_residual'])

p('C132','Freezing or linking a parameter gives a nested model',
 'Freezing a free parameter at a value inside its bounds never fails, lowers the number of free parameters by exactly one, and leaves a model that reaches exactly the predictions of the original one with that parameter held at the value. Replacing a parameter by an expression of other parameters leaves a model whose predictions the original model reaches too. So no statistic improves by freezing or linking.',
 'every model, parameter, value, statistic and choice of the other parameters',
 'it compares the sets of everything two models can predict',
 ['src/elisa/models/parameter.py: UniformParameter.default/fixed, CompositeParameter','src/elisa/models/model.py: _param_setter, Model.compile, get_model_info'])

p('C133','Library models are never negative and never undefined within the default bounds',
 'A component of the library whose parameters are inside the bounds its class declares gives, on every grid of positive increasing energies, numbers that are not negative; so does every model built from such components by sums, products and convolutions. Adding a component never lowers the model or the folded counts in any bin, and putting an absorber in front of it never raises them.',
 'every class, parameter values inside the declared bounds, energy grid, model expression and non-negative response',
 'it ranges over all parameter values and over all models that can be written',
 ['src/elisa/models/add.py: _config, continuum/integral of all classes','src/elisa/models/mul.py: _config, continuum/integral of all classes','src/elisa/models/conv.py: _config, convolve of all classes','src/elisa/models/model.py: NumericalIntegral._make_integral, CompositeModel'])

p('C134','Fluxes, luminosities and energies of a fit agree with each other and with the spectrum','flux of a fit reports for each data set the flux of its model over the band: the photon flux exactly, whatever the grid, so adjacent bands add up; the energy flux up to the grid spacing. lumin is 4 pi d_L^2 times the energy flux in the observed band and eiso is lumin times the rest-frame duration - for the value, the standard error, the interval and the errors of every data set. A band the flux makes no sense for is refused.','every list of data sets sharing models in any way, every model, band, grid, redshift, cosmology, duration, both methods','continuum of bands, grids, redshifts and spectra; a test compares a few numbers',['src/elisa/infer/results.py:MLEResult.flux', 'src/elisa/infer/results.py:MLEResult.lumin', 'src/elisa/infer/results.py:MLEResult.eiso', 'src/elisa/infer/results.py:FitResult.__init__'])

p('C135','A Bayesian fit samples prior times likelihood','The density a Bayesian fit samples is the product of the priors of the free parameters, each counted once, and of exp(-D/2), D being the statistic that a maximum-likelihood fit of the same data minimises. The default priors are normalised. The evidence is positive, at most 1 and at most the largest likelihood, and further data never increase it. With the default priors the most probable values are the best-fit values.','every list of free parameters with default priors, every list of data sets, statistics and models, every value of the parameters, every prior for the evidence','continuum of parameters, all data sets and statistics; a test compares the density at a few points',['src/elisa/infer/helper.py:get_helper', 'src/elisa/infer/likelihood.py:BetterPoisson', 'src/elisa/infer/likelihood.py:wstat', 'src/elisa/models/parameter.py:UniformParameter'])

p('C136','Components can be switched off and amplitudes are linear','Every additive component of the library is proportional to its amplitude. Every multiplicative component and every shift has a setting inside its declared bounds for which the model is the same as without it, so adding it never makes the best fit worse; adding an additive component never makes the best fit worse.','every component of the library, every expression it is added to, all parameters, grids, integration methods and statistics','continuum of parameters and grids, every component and every expression; a test tries a few values',['src/elisa/models/add.py:PowerLaw', 'src/elisa/models/mul.py:Edge', 'src/elisa/models/conv.py:ZAShift', 'src/elisa/models/model.py:ParamConfig'])

p('C137','A fit is fixed when it is made; objects do not share arrays','A fit keeps the data it was given, whatever is done later to the data objects, to their grouping or ranges, or to any array that was used to make them. A spectrum is not altered by later changes to the arrays it was made from. Data sets do not influence each other. The grouped arrays of a data set always belong to the grouping and ranges in force. Setting a grouping leaves the array passed to it unchanged, and set_grouping(None) restores the grouping of the file.','every history of creating arrays, spectra, data sets and fits, of writing into arrays, and of changing groupings and ranges','histories and aliasing of objects are unbounded; a test runs a few scripts',['src/elisa/data/base.py:ObservationData.get_fixed_data', 'src/elisa/data/base.py:ObservationData.set_grouping', 'src/elisa/data/base.py:SpectrumData', 'src/elisa/data/base.py:ResponseData', 'src/elisa/infer/fit.py:Fit'])

p('C138','Fitting repeated observations together is fitting their sum','For several observations made with one response, the statistic of the joint fit and that of the fit of the added counts with the added exposure differ by a number that does not depend on the model: all differences of the statistic, and so the best fits and confidence intervals, agree. This holds for cstat, for pstat when the known background accumulates with the exposure, and for chi2 when the squared errors do; it does not hold for wstat, where each observation has its own unknown background.','any number of observations, channels and counts, every response and exposures, all model values in the numerical range','the identity ranges over all data and all models',['src/elisa/infer/likelihood.py:cstat', 'src/elisa/infer/likelihood.py:pstat', 'src/elisa/infer/likelihood.py:chi2', 'src/elisa/infer/likelihood.py:wstat', 'src/elisa/infer/helper.py:get_helper'])

p('C139','Units of exposure, area and extraction region do not matter','An observation whose exposures, AREASCAL and BACKSCAL are given in other units (source and background alike) yields the same groups for every grouping method, the same reports of success and exceptions, the same counts, errors, background ratios and net counts after any sequence of set_erange, set_grouping and group, accepts the same statistics, and gives every channel the same log-likelihood when the model flux is expressed in the new unit (fluxes within the numerical range of the program).','all legal observations, all positive unit factors, all energy ranges, all sequences of set_erange/set_grouping/group calls, all statistics and fluxes','A test compares a few unit choices for a few data sets; the claim needs every grouping decision, including the significance of every candidate group, to depend on the scales only through ratios.',['src/elisa/data/base.py:ObservationData.set_grouping','src/elisa/data/base.py:ObservationData.group','src/elisa/data/grouping.py:_group_back_ratio','src/elisa/data/grouping.py:_interval_back_ratio','src/elisa/infer/likelihood.py:wstat'])

p('C140','A longer observation with the same rates multiplies the statistic','Observing k times as long at the same rates (k times the counts of source and background, errors larger by the square root of k, k times the exposures) leaves energies, response, area scale, ratios and the spectrum per unit time of every group unchanged, is accepted for the same statistics, and multiplies the statistic of a fit to any number of such data sets by k for all parameters; so best fits stay best fits, and the parameters within k*Delta of the best fit are those within Delta before.','all legal observations, all factors k > 0, all energy ranges and grouping flags, all five statistics, all models and parameters within the numerical range of the program, any number of data sets','A test can compare a few spectra and parameters; that the statistic is homogeneous in the data for every model also depends on the profiled backgrounds of wstat and pgstat in all their branches.',['src/elisa/data/base.py:ObservationData.set_grouping','src/elisa/infer/likelihood.py:wstat_background','src/elisa/infer/likelihood.py:pgstat_background','src/elisa/infer/likelihood.py:BetterPoisson.log_prob','src/elisa/infer/helper.py:get_helper'])

p('C141','Splitting photon-energy bins leaves the statistic unchanged','When bins of the photon-energy grid of a response are split at any energies and every part keeps the response of its bin, the fit sees the same expected counts, fitted background and log-likelihood in every channel, whatever the statistic and the model parameters.','all responses, all ways to split their bins, all data, all five statistics, models built from the additive components by sums, constant factors and redshifts, with bin fluxes in the numerical range of the program','The number of bins, where they are split, and the parameters are unbounded; a test compares a few grids, and the broken power law passes it unless a split bin contains the break.',['src/elisa/models/add.py:PowerLaw','src/elisa/models/add.py:BrokenPL','src/elisa/models/add.py:PLFluxNorm','src/elisa/models/add.py:Lorentz','src/elisa/models/conv.py:ZAShift','src/elisa/infer/likelihood.py:cstat','src/elisa/infer/likelihood.py:wstat','src/elisa/data/base.py:ResponseData'])

p('C142','Data outside the chosen energy ranges never influence a fit',
'Two data sets that hold the same counts, errors, scales, background and response in the good channels inside the energy ranges a user ever asked for give the same channel groups, the same success reports and the same statistic for every model, whatever the channels outside these ranges contain.',
'all pairs of legal observations that agree inside the ranges, with arbitrary contents outside; all sequences of set_erange, set_grouping and group calls (every method and scale); all statistics and model fluxes',
'non-interference relates two runs on arbitrary pairs of data sets; a test can vary a few out-of-range channels for a few call sequences',
['src/elisa/data/base.py:ObservationData.set_grouping','src/elisa/data/base.py:ObservationData.group','src/elisa/data/base.py:ObservationData.set_erange','src/elisa/data/base.py:ObservationData._get_channel_mask','src/elisa/infer/likelihood.py'])

p('C143','A goodness-of-fit test rejects a correct model as often as its level says',
'If the model is correct, so that the statistic of the data and those of the simulated data sets are interchangeable, the reported goodness-of-fit p-value is at most alpha with probability at most alpha, whatever the statistic, its distribution and the number of simulations.',
'every joint distribution of the observed and simulated statistics that no permutation changes (ties included), every number of simulations, every level',
'it is a statement about probabilities over all distributions and all numbers of simulations; a test sees a few p-values',
['src/elisa/infer/results.py:MLEResult.boot','src/elisa/infer/results.py:MLEResult.gof'])

p('C144','Whole-number counts are grouped exactly in float64',
'For Poisson counts (whole numbers stored as float64) whose sum does not exceed 2^53, minimum-count grouping, optimal grouping with a minimum number of counts and the counts of the groups come out as with exact arithmetic, for every order in which numpy adds numbers up and every way of breaking rounding ties; the bound 2^53 cannot be raised.',
'all arrays of non-negative whole numbers with sum up to 2^53, all thresholds, flags and quality masks; all round-to-nearest arithmetics and all summation orders, which may differ from call to call',
'the summation order of numpy depends on the length, alignment and processor; tests see one machine and a few arrays',
['src/elisa/data/grouping.py:group_min','src/elisa/data/grouping.py:group_opt','src/elisa/data/base.py:SpectrumData.group'])

p('C145','Grouped float64 counts carry a bounded rounding error',
'For counts that are arbitrary non-negative float64 numbers (Gaussian data, scaled counts) the counts of every group are computed with a relative error of at most N * 2^-52, where N is the number of channels, for every summation order; there is one value for every group and inputs are refused in the same cases.',
'all spectra with non-negative float64 counts of total at most 2^1022 and at most 2^52 channels; all grouping flags and quality masks; all round-to-nearest arithmetics and summation orders',
'a rounding-error bound is a statement about all inputs and all summation orders; tests compare a few sums with a tolerance chosen by hand',
['src/elisa/data/base.py:SpectrumData.group'])

p('C146','Profile backgrounds stay non-negative and rates positive in float64',
'In float64 arithmetic the background rate the W- and PG-statistic maximise over is never negative, is positive in channels where background counts were observed, and the expected counts of the source region are positive, so that the statistic is always a finite number.',
'all expected source counts the code can reach (clipped to 1e-30 ... 1e15), all background ratios and errors between 2^-100 and 2^100, all whole numbers of counts up to 2^53, all background estimates up to 2^100; all round-to-nearest arithmetics',
'cancellation in (c + sqrt(c^2 + ...)) depends on the last bits of every operand; no set of test points excludes a negative or zero rate',
['src/elisa/infer/likelihood.py:wstat_background','src/elisa/infer/likelihood.py:pgstat_background','src/elisa/infer/likelihood.py:wstat','src/elisa/infer/likelihood.py:pgstat','src/elisa/infer/helper.py'])

p('C147','Expected counts in float64: dense and sparse responses agree to rounding',
'In float64 arithmetic the expected source counts of a channel differ from their exact value by a relative error of at most (K+3) 2^-52, K the number of operands of the sum over photon bins, and a response stored as a sparse matrix gives the same expected counts as a dense one up to such rounding errors.',
'all non-negative responses and model values, all area scales and exposures up to 2^60, all channels, all orders of summation, with or without fused multiply-add and zero padding, all round-to-nearest arithmetics; underflow included',
'the order of additions is chosen by the BLAS and the sparse kernels and differs between machines; a test only sees one of them',
['src/elisa/infer/likelihood.py:_get_resp_matrix','src/elisa/infer/likelihood.py:chi2','src/elisa/infer/likelihood.py:cstat','src/elisa/infer/likelihood.py:pgstat','src/elisa/infer/likelihood.py:wstat','src/elisa/data/base.py:FixedData.response_sparse'])

p('C148','Components evaluate their documented formulas',
'In every energy bin a component holds the integral (additive) or mean (multiplicative) of the formula given in its documentation: exactly for the analytically integrated components, by the trapezoidal or Simpson rule for the others; photon absorption follows its table of cross sections as a power law between entries.',
'all components of the library, all parameter values within their declared bounds, all grids of positive increasing energies, both integration methods',
'a formula that agrees at the tested parameters and energies can differ elsewhere, in a clipped branch or at an index where the closed form changes',
['src/elisa/models/add.py','src/elisa/models/mul.py','src/elisa/models/model.py:NumericalIntegral._make_integral','src/elisa/models/model.py:AnaIntAdditive','src/elisa/models/model.py:NumIntAdditive'])

p('C149','The C-statistic in float64: error bound from response to total, dense and sparse alike',
'In float64 arithmetic, with a logarithm accurate to a few units in the last place, the Poisson log likelihood of a channel is off by at most 2^-47 of the size of its terms, never positive and free of overflow; with up to 10^6 counts its part of the statistic is off by less than 2e-6; the C-statistic of a data set, from the product with the response to the sum over channels, is off by at most 2^-50 times (photon bins + channels + 39) times the summed size of the terms; a channel that the model reproduces exactly adds exactly zero.',
'all whole-number counts up to 2^53, all expected counts between 2^-200 and 2^60, all numbers of channels and photon bins, every order of summation, dense and sparse response and distribution, every round-to-nearest arithmetic and every accurate logarithm',
'rounding errors depend on the data, on the order of summation and on the library; a test samples a few values on one machine',
['src/elisa/infer/likelihood.py:BetterPoisson.log_prob','src/elisa/infer/likelihood.py:cstat','src/elisa/infer/helper.py:get_loglike','src/elisa/infer/helper.py:deviance'])

p('C150','Power law bins in float64',
'In float64 arithmetic the photons of a power law in a bin are accurate to a few units in the last place times the stated amplification, never negative, and every index in the allowed range, in particular an index near one, gives the photons of a power law of that index to rounding.',
'all indices, all bins with edges between 1e-6 and 1e6 keV, every round-to-nearest arithmetic, every accurate power and logarithm',
'the loss of digits depends on the index and the width of the bin; tests use round indices and either exactly one or values far from it',
['src/elisa/models/add.py:_powerlaw_integral','src/elisa/models/add.py:PowerLaw','src/elisa/models/add.py:PLFluxNorm','src/elisa/models/add.py:BrokenPL'])

p('C151','Li-Ma significance in float64',
'In float64 arithmetic the Li-Ma significance of a group is a number for every pair of counts, has the right sign, and is accurate enough that grouping to a significance gives the grouping of exact arithmetic unless a significance is within rounding of the wanted one.',
'all counts, all ratios between 2^-30 and 2^30, every round-to-nearest arithmetic, every accurate logarithm',
'the terms cancel when there is no excess, and the sign of what is left depends on the last bits of the ratio; tests use groups with a clear excess',
['src/elisa/data/grouping.py:significance_lima','src/elisa/data/grouping.py:group_sig_lima'])

p('C152','Chi-square and P-statistic in float64',
'The chi-square statistic and the P-statistic that a fit minimizes, as computed in float64 from the product with the response to the sum over the channels, are those of exact arithmetic up to a small multiple of 2^-50 of the size of their terms, whatever the order of the sums.',
'all data sets with non-negative responses and finite counts and uncertainties, all model values within the clipping limits, every round-to-nearest arithmetic, every order of the sums, dense or sparse responses and Poisson distributions',
'the order of the sums is chosen by the compiler and the processor, and the statistic is small where the sizes of its terms are not; tests compare a few statistics with a tolerance',
['src/elisa/infer/likelihood.py:chi2','src/elisa/infer/likelihood.py:pstat','src/elisa/infer/likelihood.py:BetterNormal','src/elisa/infer/helper.py:get_loglike'])

p('C153','W-statistic in float64',
'The W-statistic that a fit minimizes, as computed in float64 from the product with the response over the profile background to the sum over the channels, is that of exact arithmetic up to a small multiple of 2^-50 of the size of its terms, times the ratio of source to background counts in the source region (which measures the digits the profile background loses), whatever the order of the sums.',
'all data sets with non-negative responses, whole counts in both regions and ratios within 2^±30, all model values within the clipping limits, every round-to-nearest arithmetic, every order of the sums, dense or sparse responses and Poisson distributions',
'the profile background is a root of a quadratic whose numerator cancels, with separate branches for empty regions chosen by comparisons of computed numbers; tests compare a few statistics with a tolerance',
['src/elisa/infer/likelihood.py:wstat','src/elisa/infer/likelihood.py:wstat_background','src/elisa/infer/likelihood.py:BetterPoisson','src/elisa/infer/helper.py:get_loglike'])

p('C154','Significance over a Gaussian background: zero uncertainties and rounding',
'The significance of an interval over a background with Gaussian uncertainties is a finite number that is close to the one of exact arithmetic, and grouping by significance closes a group as soon as its significance reaches the threshold, also where the uncertainty of the background is zero.',
'all non-negative counts, backgrounds, non-negative uncertainties and ratios, all lists of channels; for the rounded version every round-to-nearest arithmetic and every logarithm accurate to 2^-50',
'NaN and infinities arise only where an uncertainty vanishes or where a rounded difference of nearly equal numbers is negative, for isolated inputs such as 43 background counts with the uncertainty of counts; all comparisons with NaN are false, so that the grouping goes on silently',
['src/elisa/data/grouping.py:significance_gv','src/elisa/data/grouping.py:group_sig_gv'])

p('C155','PG-statistic in float64',
'The PG-statistic that a fit minimizes, as computed in float64 from the product with the response over the profile background to the sum over the channels, is that of exact arithmetic up to a small multiple of 2^-50 of the size of its terms, times the ratio of the numbers that cancel in the profile background to the expected counts, whichever branch the computed numbers select and whatever the order of the sums; where the background estimate is at least twice its variance times the ratio of the regions, that ratio is at most nineteen.',
'all data sets with non-negative responses, whole source counts, background estimates of either sign up to 2^60, uncertainties and ratios within 2^±30, all model values within the clipping limits, every round-to-nearest arithmetic, every order of the sums, dense or sparse responses',
'the profile background is a root of a quadratic chosen by the signs of two computed numbers that may themselves have lost all digits, so that rounding can select another branch than exact arithmetic; tests compare a few statistics with a tolerance',
['src/elisa/infer/likelihood.py:pgstat','src/elisa/infer/likelihood.py:pgstat_background','src/elisa/infer/likelihood.py:BetterNormal','src/elisa/infer/likelihood.py:BetterPoisson','src/elisa/infer/helper.py:get_loglike'])

p('C156','Grouping by plain significance in float64','Grouping by the ratio of counts to error (method bsig, and method sig for Gaussian data or without a background) computes in float64 the same groups and the same success flag as exact arithmetic would, in particular whether a group reaches the requested significance.',
'all lists of counts of either sign, of errors and thresholds (no bound on their number but 2^40), every rounding to nearest and every order in which NumPy may add',
'Whether a sum of rounded terms ends on the right side of a threshold depends on the last bit of every sum, and the order of the additions is not specified; tests see single data sets on one machine.',
['src/elisa/data/grouping.py:group_sig_normal','src/elisa/data/base.py:ObservationData.group'])

p('C157','Sums over intervals of channels in float64','When channels are grouped by significance, the counts, background, background variance and exposure ratio used for an interval of channels are, up to rounding, those of the channels in the interval, whatever the channels before it contain.',
'all lists of numbers of either sign (up to 2^25 channels), all intervals, every rounding to nearest',
'The sums are differences of running totals, so the error of an interval depends on everything before it; tests see single data sets with comparable channels.',
['src/elisa/data/grouping.py:_prefix_sum','src/elisa/data/grouping.py:_interval_sum','src/elisa/data/grouping.py:_scale_from_interval','src/elisa/data/grouping.py:_interval_back_ratio','src/elisa/data/grouping.py:group_sig_gv'])

p('C158','Optimal grouping with a minimum plain significance in float64','Grouping channels to optimal width with a minimum significance given by counts and errors gives, in float64, the groups and the reported success of exact arithmetic, in whatever order NumPy adds.',
'all numbers of channels up to 2^40, all counts of either sign, all errors, all widths, every order of addition and every rounding to nearest',
'Bins that just reach the threshold are decided by rounding, which depends on the order of additions; tests see single spectra.',
['src/elisa/data/grouping.py:group_optsig_normal','src/elisa/data/base.py:ObservationData.group'])

p('C159','Optimal grouping with a minimum Li-Ma or Gaussian-background significance in float64','Grouping channels to optimal width with a minimum significance over a Poisson or a Gaussian background gives, in float64, the groups and the reported success of exact arithmetic.',
'all numbers of channels, all counts up to a million, all backgrounds and ratios of ordinary size, all widths, every rounding to nearest and every accurate logarithm',
'The significance is computed with cancellation and may be NaN or infinite; a test sees single spectra and cannot show that no grouping changes.',
['src/elisa/data/grouping.py:group_optsig_lima','src/elisa/data/grouping.py:group_optsig_gv','src/elisa/data/base.py:ObservationData.group'])

p('C160','Nothing that is given about a spectrum is changed without a warning','When a spectrum is made from arrays or read from a file, counts, quality and exposure are kept as given; scales and grouping flags are changed only with a warning; the user is warned, once, exactly when Poisson counts are not whole numbers, when errors are zero, and when systematic errors are ignored.',
'all arrays, files, header keywords and switches of the warnings',
'Warnings depend on single channels of arrays of any size and on comparisons with a tolerance; tests look at a few spectra.',
['src/elisa/data/base.py:SpectrumData.__init__','src/elisa/data/ogip.py:Spectrum.__init__'])

p('C161','Replacing strings in nested values','replace_string(value, mapping) replaces every occurrence of a key of the mapping, all at once, in every string of the value at any depth, keys of dictionaries included, and leaves everything else as it is: lists stay lists of the same length and dictionaries keep their entries.',
'all nested lists, tuples and dictionaries of strings and other objects, and all mappings',
'Values nest to any depth and keys may overlap; examples cannot cover how replacements interact.',
['src/elisa/util/misc.py:replace_string'])

p('C162','Grouping with a minimum significance, everything in float64','Grouping channels with a minimum Li-Ma or Gaussian-background significance, with the sums over intervals, scale factors, ratios, significances and the final report of success all computed in float64, gives the groups and the reported success of exact arithmetic.',
'all numbers of channels, counts, backgrounds, errors, scale factors and thresholds; all optimal widths; every rounding to nearest, every order of additions numpy may choose and every accurate logarithm',
'Rounding errors of long prefix sums, of four scale factors and of a logarithm add up in one comparison per interval; a test sees single spectra and cannot show that no comparison changes.',
['src/elisa/data/grouping.py:group_sig_lima','src/elisa/data/grouping.py:group_sig_gv','src/elisa/data/grouping.py:group_optsig_lima','src/elisa/data/grouping.py:group_optsig_gv','src/elisa/data/grouping.py:_interval_sum','src/elisa/data/grouping.py:_interval_back_ratio'])

out = pathlib.Path(__file__).resolve().parent.parent/'properties.jsonl'
out.write_text(''.join(json.dumps(x, ensure_ascii=False)+'\n' for x in P))
print(len(P))

#!/usr/bin/env python3
"""Generates tools/notes.json and DESIGN.md from the text below."""
import json, pathlib, re, glob
ROOT = pathlib.Path('/verif')
D = {}
def d(pid, how):
    D[pid] = how

# what is modelled and how it is proved
d('C01', 'The numba loop `group_min` as a list recursion; the specification `IsGroup flags a b` (start flag at a, -1 inside, next start or end at b) does not mention the loop. Loop invariant by induction over the channels.')
d('C02', 'The loop of `group_const` with its final merge; induction as for C01.')
d('C03', 'The two nested loops of `group_opt` (fuelled recursion, fuel proved sufficient) and the bin-width formula of Kaastra & Bleeker over the reals.')
d('C04', 'As C03 with the minimum-count test; the last group is merged backwards.')
d('C05', 'The scan shared by `group_sig_*`, with the significance an arbitrary function of the sums; specialised to Li-Ma, Gaussian-variance and normal.')
d('C06', 'The `group_optsig_*` loops.')
d('C07', 'Grouped scale data as sums over an ordered field; grouping twice against once by regrouping finite sums.')
d('C08', 'Prefix sums of the scale data and the interval formula; equality with the ratio of the final group.')
d('C09', 'The weighted mean of `_group_scale_data`: bounds by minimum and maximum, exactness of the scaled counts.')
d('C10', 'Li & Ma eq. 17 over the reals; non-negativity of the radicand through log x <= x - 1; sign and zeros; identity with the likelihood ratio.')
d('C11', 'The profiled Gaussian background: it is the maximiser of the profile, significance real and signed.')
d('C12', 'set_grouping of ObservationData on lists; sums over the good channels of each group.')
d('C13', 'Two observations equal on the good channels.')
d('C14', 'The noticed mask as a predicate on groups; exact characterisation, and recovery of the whole spectrum from all channels.')
d('C15', 'The range checks and the object as a state machine: any history of set_erange/set_grouping/group calls keeps the derived data consistent; failed calls change nothing.')
d('C16', 'Net counts and variance formulas; equality with the sum over the good channels of the group.')
d('C17', 'ObservationData.group: segments of noticed channels, each method of C01-C06 on each segment, flags concatenated.')
d('C18', 'Matrix folding over the grouped response equals the sum over the channels of the group (finite sums).')
d('C19', 'Error columns of the OGIP reader followed by those of SpectrumData.')
d('C20', 'Decoder of the compressed response against an independent encoder specification; ARF multiplication; truncation.')
d('C21', 'The constructors of SpectrumData, ResponseData and ObservationData as Except functions; accepted iff the documented conditions hold (non-integer Poisson counts only warn).')
d('C22', 'The closed form of the profiled background; maximality through the concave likelihood in one variable (log x <= x - 1), including the zero-count branches.')
d('C23', 'As C22 with a Gaussian background.')
d('C24', 'The Poisson deviance with x log x = 0 at 0.')
d('C25', 'The likelihood groups of every statistic as in numpyro; sums of log probabilities; the constant dropped is the saturated model.')
d('C26', 'UniformParameter as a state machine over a float type with NaN and infinities; every history of assignments.')
d('C27', 'The same state machine.')
d('C28', 'The assignment tracker as a store keyed by addresses, with creation, assignment and garbage collection in any order.')
d('C29', 'Label text of composite parameters, read back by an independent precedence-respecting parser; for every expression tree the parse evaluates to the same value.')
d('C30', 'Expression trees, substitution of supplied values, captured defaults.')
d('C31', 'Typed model expression trees (add/mul/conv), acceptance exactly by the typing rules; value by recursion.')
d('C32', 'The list of additive sub-models.')
d('C33', 'Sequence, mapping and default evaluation of a compiled model.')
d('C34', 'Suffix generation for duplicate names.')
d('C35', 'Additive components as interval functions; additivity over partitions, by telescoping of antiderivatives.')
d('C36', 'Power law bins against the Mathlib integral, both branches of the index.')
d('C37', 'Broken power law.')
d('C38', 'Normalisation constants of PLPhFlux and PLEnFlux against integrals.')
d('C39', 'Band and BandEp.')
d('C40', 'Redshift and velocity shift as operations on interval functions.')
d('C41', 'PhFlux/EnFlux convolutions over the band grid of the code.')
d('C42', 'Trapezoid and Simpson rules of `_make_integral_fn`; exactness, bounds, and the error of the trapezoid by the second derivative.')
d('C43', '`check_data_stat` and the choice of the default statistic on all combinations of flags.')
d('C44', 'Broadcasting of data, model and statistic lists; the namespace of repeated statistics.')
d('C45', 'Degrees of freedom and information criteria over the reals.')
d('C46', 'Reshape to (devices, n/devices), map, concatenate: equal to a sequential map; run sizes of boot and ppc.')
d('C47', 'An interleaving semantics (small steps) of the update calls; invariant over all schedules.')
d('C48', 'Level conversion over the reals with the Gaussian measure of Mathlib, and in rounded arithmetic.')
d('C49', 'p-values as frequencies over lists.')
d('C50', 'Parameter array/mapping conversions on association lists.')
d('C51', 'Parameter selection on lists.')
d('C52', 'The simulator distributions of every statistic.')
d('C53', 'Deviance residuals.')
d('C54', 'get_parallel_number, set_cpu_cores, enable_x64.')
d('C55', 'Lorentzian against the integral of Mathlib.')
d('C56', 'Net spectra against the folded model.')
d('C57', 'Probability integral transforms.')
d('C58', 'OGIP spectrum keywords and columns.')
d('C59', 'Name resolution of a data set.')
d('C60', 'Repair of the photon grid.')
d('C61', 'Parameter collection over histories of the tracker of C28.')
d('C62', 'Energy flux by mid energies against the integral; explicit bound.')
d('C63', 'Luminosity and isotropic energy as integrals in the rest frame.')
d('C64', 'Stabilised branches of the smoothly broken power law and the black body against the closed forms.')
d('C65', 'The fold over the interval parameters, with the adaptive quadrature of quadax an argument; theorems for quadratures that are exact on continuous integrands (idealisation) and averages by Mathlib integrals.')
d('C66', 'Multiplicative components.')
d('C67', 'LinLogTransform and its ticks.')
d('C68', 'Gaussian kernel smoothing.')
d('C69', 'Hexadecimal colour strings, character by character.')
d('C70', 'Finite differences of Python components.')
d('C71', 'Unit cube transforms of the nested samplers: push-forward of the uniform measure.')
d('C72', 'Walkers, seeds, listener thread, start method as small state machines.')
d('C73', 'The penalised search of profile intervals.')
d('C74', 'Flux/lumin/eiso bookkeeping.')
d('C75', 'Covariance propagation, selection and posterior covariance.')
d('C76', 'Component settings as a state machine.')
d('C77', 'Bootstrap and predictive-check results as functions of the arguments, over histories of calls.')
d('C78', 'The plot cache keyed by the address of a result.')
d('C79', 'Maximum-likelihood drivers as state machines over call histories.')
d('C80', 'BlackJAX kernel wrapper: warm-up counter, adaptation and mean acceptance.')
d('C81', 'Chain initial states and their records.')
d('C82', 'Equal-tailed and highest-density intervals of finite samples.')
d('C83', 'LOO-PIT.')
d('C84', 'Names in the stored posterior.')
d('C85', 'ResponseData.fwhm and channel_fwhm.')
d('C86', 'CompiledModel.simulate and simulate_from_data with the generator as a parameter; the result is described by the means, widths and generator states asked for, and the expected counts of every later group compared with those of the fit.')
d('C87', 'The setter of a slot as a function on a world of components, slots, trackers and parameter objects; worlds reachable by any history without address reuse; what is asked for is a separate relation, the effect is proved from the invariant of the bookkeeping (C28) and the constructor of parameters (C26).')
d('C88', 'The generated signature, the binding of Python arguments, the loop of Component.__init__ over the declared parameters, and the lookup of super(type(self), self).__init__ along the method resolution order.')

d('C89', 'report_interval over rationals with an arbitrary rounding to nearest; the result is the triple of numbers and the power of ten the text denotes.')

d('C90', 'Arrays as a shape and a function of indices; jax.vmap by its documentation; the nested vmap of _prepare_eval proved equal to elementwise evaluation by induction over the number of axes; ce over the reals.')

d('C91', 'The generator of XSPEC components (slot names, declared configuration, order of the values), the derivative-method cache, and the extension of the energy grid by geomspace over the reals with the slice that undoes it; the XSPEC functions themselves are arbitrary.')
d('C92', 'The cuts, slices and loops of _plot_step and _plot_ribbon; a curve is the list of its pieces as matplotlib draws steps with where=post; the pieces of all curves proved equal to the bins by induction over the cuts.')

d('C93', 'np.quantile as in C48; the share held by a band counted in the sorted sample; the residual panel as a function of levels, simulations and residuals; levels from a standard normal measure.')

d('C94', 'Plotting positions, order statistics of simulations, binomial quantiles; coverage proved in the product measure of independent values by counting how many are below a threshold; the goodness-of-fit curve against the p-value of C49.')

d('C95', 're.split as a scanner over characters; the figures and panels as lists; exact rational arithmetic for the conversion factor.')

d('C96', 'A file system as a partial function from paths to contents; the regular expression for file{n} as a scanner proved to find the last brace; Data(...) as a sequence of reads in the Except monad over the models of the readers (C58-C60), the row selection with Python indexing of negative rows included.')

d('C97', 'Composition of the models of the file readers (C58-C60, C96), of the object with its history of calls (C15-C21), of the check of statistics (C43) and of the likelihoods (C22-C25) in one theorem. The specification mentions only the content of the files, the flags and ranges in force and the fluxes: groups of channels, sums over used channels, effective scales, the encoded matrix and likelihood ratios.')

d('C98', 'The draws of a posterior as a list of fluxes with log weights per channel; residuals built on the models of the likelihoods (C22-C25), of Pearson residuals (C53), of the leave-one-out expectation (C83) and of the limits (C57). Weighted means are handled by induction on the list of draws.')
d('C99', 'A small machine: the simulations held at an address, one cached method and one that calls it, each with the address last seen and a dictionary; histories are lists of runs and calls, with addresses as Python may give them out. Invariant: a cache whose address is the present one holds values of the present simulations.')
d('C100', 'The setters of the settings as total functions on real numbers, NaN, infinities and texts; validity is an invariant of histories of assignments. The colours are a machine with a cached palette; the specification (colours in force, palette in force) is stated on the history alone.')
d('C101', 'Objects with class attributes (plain, read-only and settable properties), an own dictionary and the flag; Python attribute access as total functions; invariants of histories of assignments and deletions.')
d('C102', 'A disk of byte lists; a save empties the file and writes a prefix of the encoded result, cut at any byte; the codec is a parameter that reads sequentially. The last accepted save of a path is a notion on histories alone.')

d('C103', 'Draws as a list of chains of real numbers; mean, standard deviation (both conventions), the draw of highest likelihood and the divergence counter, transcribed; bounds, invariance under regrouping and affine equivariance by algebra on sums.')
d('C104', 'The normal density and the trapezoidal rule over real numbers; the flux from the Gaussian integral in Mathlib, the error of the bins from the second derivative, the failure for narrow lines as a limit of the bin integral against the value given to the bin.')
d('C105', 'The four process-wide settings as a state, every run as a transition that may raise, foreign code as arbitrary functions of the state; induction over the history.')
d('C106', 'What every nested sampler hands over, as a record, and the result built from it; case analysis.')
d('C107', 'The data of the curve and of the hatching as lists of real numbers; the intervals of noticed bins by sortedness of the bin edges, induction over the noticed ranges.')
d('C108', 'np.insert as a recursive function over positions; the cells of the mesh for any number of gaps by induction over the channels.')
d('C109', 'The bars and significances as functions of the noticed groups; rates pointwise from the description of the observation, sign and finiteness of the significance from the formulas of Li & Ma and Vianello, with a witness of a non-finite value for zero errors.')
d('C110', 'The name as rendered tokens of an unambiguous grammar (as C29), read back into the denotation of the model by induction over the model; str.replace as a recursive scan, with invariants over the ids already replaced.')
d('C111', 'The tree of fluxes evaluated at overridden draws, with the quantiles and moments of C48 and C103; scaling of quantiles and moments by a factor, sums of components by induction.')
d('C112', 'Labels as character lists, read back by a small reader (parts separated by TeX blanks, exponents in braces); str.replace as in C110; induction over bases and mantissas.')
d('C113', 'Data and noise as the product of the Poisson and the uniform measure of Mathlib; the event that the residual is at most x is cut into one interval of the noise per count, whose lengths telescope to the normal distribution function.')
d('C114', 'Component formulas over the reals; the local slope is the derivative of log N with respect to log E, and a lemma shows that slope at every energy and the value at one determine the function.')
d('C115', 'The trace of the probabilistic model as a dictionary of named sites, with replacement as in numpyro; names as strings of any characters; injectivity of name plus ending under a separation condition on the names, counterexamples without it.')
d('C116', 'Differential spectra bin by bin over the reals; the mean value theorem for integrals gives the energy at which the continuum is read off.')
d('C117', 'One step of the walkers is an arbitrary function of positions, generator and tuning state; runs are iterates of it. What emcee 3.1.6 does with a random state it cannot use (it goes on with the generator of the process) is an assumption about the library, stated in the model.')
d('C118', 'The stored log-likelihoods of C84 (names of data sets included), stacked over chains and draws; ArviZ\'s `waic` modelled as documented. Jensen\'s inequality is proved, not assumed.')
d('C119', 'The likelihoods are log-concave in (source, background) jointly (weighted arithmetic-geometric mean inequality), hence the profiled deviances of C25 are convex in the source counts; folding is linear, so the total is convex in the amplitudes, and Mathlib turns local into global minima. Stated for `fitSites`, the model of what the code evaluates.')
d('C120', 'For cstat the deviance is a differentiable function of a common factor; for wstat it is bounded above by the function which scales the profiled background too, with equality at the fit (the profile minimises, C22). A local minimum of that bound has derivative zero, which is the balance of counts.')
d('C121', 'The curve the code solves is minus twice the logarithm of the profile likelihood (C22); it is convex with one minimum (C119) and continuous, so each level above the minimum is reached once above the net counts and, if it is below the value at zero, once below them. The root finder is any function which returns a root when there is one and the start is finite; the starts are shown to be finite (a net signal that needs a lower error bar exceeds half a count). In an empty channel the start is not finite (`C121_empty`). `pgstat_errors` has no body.')
d('C122', 'The runs of consecutive indices (`np.split`), the marking of the runs that reach an end and boolean indexing are modelled; proved by splitting the rows into leading empty, middle and trailing empty ones. The code that calls it is commented out (ogip.py:583), which the gaps theorem explains.')
d('C123', 'Composes the model of `set_grouping` (C16) with that of the statistics (C25). Proved by showing that the good channels of a coarse group are the disjoint union of those of the fine groups inside it, and that the product of the likelihood ratios of channels is at most that of their sum (tangent of the logarithm for Poisson, Sedrakyan for Gauss, the sum of the profiled backgrounds for wstat and pgstat).')
d('C124', 'Uses the models of the statistics and of the aggregation (C25). Proved without differentiating the profiled background: the deviance of a channel lies between the deviance with the background kept fixed and its tangent, which follows from the optimality conditions in C22 and C23; then the chain rule. What JAX computes as the gradient is not modelled, only that the statistic has one.')
d('C125', 'Model of templates as lists of pieces (Python\'s reading of the text of a template is not modelled), of the unicode tables, of the refusal test and of the naming of components in a fit. The accepted configurations are characterised exactly; histories by induction. Distinctness by cutting a name at its first mark. Two refutations: a precision in a template and letters that share a superscript form.')
d('C126', 'Uses the models of the statistics (C22-C25). Explicit inequalities, proved from the tangent of the Poisson likelihood and the maximum of a Gaussian or Poisson term with a linear tilt; chi2 against cstat from the remainder of the logarithm. Statements are about the numbers the likelihood functions report.')
d('C127', 'Uses the models of C25 and C119. Strict convexity at the mid-point from strict log-concavity of the factors of the likelihood (also of the profiled one, whose two maximisers differ in the source or in the background factor); then the sum over channels and data sets.')
d('C128','Model the dictionaries behind the tables (`ndata`, `deviance`, `mle`) and the rows built from them, the formatting of numbers being a parameter. Prove by the lookups in dictionaries with distinct keys. A data set named `total` refutes the claim for the table of statistics.')
d('C129','Reuse the model of the input parsing (C44) and of the likelihood (C24, C25); characterise acceptance, and each kind of refusal, by conditions on the members of the list, which permutations preserve; the totals are sums over the data sets.')
d('C130','On the model of the likelihood (C22-C25), show that each branch of the background formulas agrees with its neighbour on the boundary, so that the profiled background is continuous; compose with the clipped source counts, sum over channels and data sets, and apply compactness. A constant model whose bound excludes the observed counts shows that open bounds may have no best fit.')
d('C131','Model: the deviances of `Infer/LikSpec.lean` and the Pearson residuals of `Plot/Residual.lean`. Proof: `log x` lies between `2(x-1)/(x+1)` and `(x-1/x)/2`, which bounds the Poisson deviance by the squared Pearson residual on either side; the best background of the two residuals is the same, by uniqueness of the maximum; signs from C53.')
d('C132','Model: `Models/Info.lean` (compile, slot values); freezing changes the kind and the default of a parameter, linking the content of a slot. Proof: the frozen value moves from the captured defaults to the supplied values and back; counting by erasing one element of the set of free parameters. Linking holds when the expression stays inside the bounds of the replaced parameter; the code does not ask for that and `C132_link_refuted` gives a linked model that fits better than the original.')
d('C133','Model: `Models/Catalogue.lean`, all 26 additive and multiplicative and 6 convolution classes with their declared bounds, in *checked* arithmetic (a division by zero, a logarithm or power of a non-positive number is no number), as a library for `Models/Algebra.lean`. Proof: class by class, then induction over the model expression; agreement with the plain formulas used elsewhere is part of the statement. Partial: the declared bounds of Gauss, GAbs, Edge and PLAbs include a value for which the formula is no number (`C133_bounds_refuted`: zero line width, which XSPEC users write for a narrow line, gives NaN).')
d('C134','The three front ends (grid, sum over the grid, factor of the unit) on top of the model of `_intensity_ci` (C74) and of the spectra (C35, C62, C63). The entries of the three methods are related by one lemma on the factor; the grids by their scaling. The refusal of unusable bands is refuted (one grid point gives 0, a reversed band a negative flux).')
d('C135','The log density of `numpyro_model` is modelled as the sum over its sample sites (priors of the free parameters, `_Non` and `_Noff` of every data set) and compared with the total deviance of the helper; the evidence by integration against any probability measure, using the continuity of C130. That the mode is the best fit is proved for uniform priors, and on the logarithmic scale for log-uniform ones; on the linear scale it is refuted.')
d('C136','Proved over the catalogue of C133: the value of a bin under scaling of the amplitude, the off setting of every class, and the meaning of expressions when the parameters of one component change. For additive components the claim holds in the limit of zero amplitude only; the declared lower bound 1e-10 refutes it for fits of empty data.')
d('C137','A heap model: arrays live at addresses, objects hold addresses, operations copy or share exactly where the code does. Invariants over all histories of operations give the claims about fits, spectra and other data sets; the last clause is refuted, because set_grouping keeps the array it is given and writes quality flags into it.')
d('C138','The deviance of each channel is reduced to the negative log likelihood of its expected counts (C25); with one response the expected counts are the exposure times a common rate, so the rate enters the joint and the summed statistic in the same way. A worked example shows that wstat differs.')
d('C139','Modelled by the existing observation, grouping and likelihood models (Data/Obs, Data/Group, Infer/Likelihood). The specification only rescales the input files. Proved by comparing the two runs: the mean scale of an interval of groups is linear in the unit whenever the interval has a good channel (and the default 1 is used for both otherwise), so all ratios agree; then by induction over the calls.')
d('C140','Uses the models of set_grouping and of the five likelihoods. The specification multiplies the contents of the files. Proved channel by channel: each background profile and each log-probability is homogeneous of degree one, in every branch; then summed over channels and data sets.')
d('C141','A coarse response is a list of bins with their rows and the energies at which they are split. Model values are integrals of a photon spectrum (proved per component); sums of integrals over the parts give the integral over the bin, so the fold and then the likelihood agree. The broken power law violates it: a witness with unit response whose expected counts change from 3/2 to 7/6.')
d('C142','Relational theorem over two observations: `SameInside R` constrains only good channels inside the ranges `R`. Flags: every noticed group lies inside a range, so the arrays are equal. Adaptive grouping: the masked arrays of every range are equal, hence flags, report and arrays. Session: induction over the list of calls, with `R` any list holding all ranges asked for. The net setting left open without background is a counterexample (`C142_net_refuted`): a negative count outside the range changes the area scale inside.')
d('C143','The p-value is the modelled `pValue`; data and simulations form a random vector with an exchangeable law. At most k+1 entries of a vector have at most k others at or above them (exactly k+1 without ties), which bounds the probability by (floor(alpha n)+1)/(n+1). Equality for independent draws from a law without atoms refutes the claim: p = 0 occurs with probability 1/(n+1). Limit in the number of simulations is alpha.')
d('C144','`Grouping/Float` models the loops once more, with every result rounded by an arbitrary round-to-nearest function and sums evaluated along an arbitrary binary tree whose leaves are the numbers given. `Rep` is the set of finite binary64 numbers. Whole numbers up to 2^53 are in the set, so induction over the tree shows that every partial sum is exact; the float loops then equal the integer loops of C01-C07 and the real-number model of C12. `C144_limit`: 2^53+1 is not in the set. A legal implementation exists (`leftImpl_legal`).')
d('C145','Relative error of one rounded addition (2^-53, including subnormal numbers, where additions are exact) by exhibiting a number of the format that is close enough; induction over the tree of additions gives (1 ± 2^-53)^depth, and depth is less than the number of channels; the powers are bounded linearly.')
d('C146','`Infer/FloatStat` repeats the two formulas with every operation rounded. Core lemma: in binary floating point the rounded square root of a number not below the rounded square of c is not below |c| (`sqrt_square`, by the spacing of binary64 numbers), so c + sqrt(c^2 + t) is never negative; the ranges rule out overflow and underflow. True parts: positive source-region rate, non-negative background when background counts were observed or nothing was observed. Refuted with witnesses valid in every round-to-nearest arithmetic: without background counts the rate can be -2^-50 (numpy then refuses to simulate), and with one background count it can be exactly zero for a very bright source (log-likelihood minus infinity).')
d('C147','`Infer/FloatFold`: an entry of the product matrix times spectrum is computed by an arbitrary tree of rounded (or fused) products and rounded additions over the stored entries, then scaled and clipped with rounding. Proof by induction over the tree with a mixed relative/absolute error (the absolute part covers underflow), then through the two scalings and the clip; the sparse claim follows from the triangle inequality.')
d('C148','The formulas of the class documentation are written down once as the specification (`doc`), next to the catalogue of components of C133, and every class is compared with its own formula, bin by bin. True for all but: Band functions with nearly equal indices, black bodies far from kT, `PLAbs` with index 1. Refuted at the defaults for `BrokenPL` (a factor 1/Eb) and `SmoothlyBrokenPL` (the factor 4^rho Eb^alpha1), both of which are proved to be the only differences away from the break.')
d('C149','`Infer/FloatPoisson`: `BetterPoisson.log_prob` (both branches) with every operation rounded and an assumed accuracy of the logarithm, composed with the folding of C147, the sum over channels in an arbitrary order and the factor -2. Proof by a step lemma (each rounding adds one unit relative to the size of the terms), a Lipschitz bound for the log likelihood in the expected counts, and the error of a sum of non-positive terms.')
d('C150','`Models/FloatPower`: `_powerlaw_integral` for one bin with every operation rounded and assumed accuracies of the power and the logarithm; the exact value is the integral of E^-alpha. Proof: the rounded exponent is absorbed in the index (backward error), each further rounding adds one unit relative to the two edge terms, and the cancellation is bounded by exp t >= 1 + t; monotonicity of rounding gives the sign. The claim near index one fails: counterexample for every implementation with correct rounding.')
d('C151','`Grouping/FloatLima`: `significance_lima` and `group_sig_lima` with every operation of the significance rounded, the square root of a negative number a NaN and comparisons with NaN false. Proof: relative errors of the arguments of the two logarithms, absolute error of their sum against the number of counts, then the square root; the sign because a product that is rounded down to the counts has a significance below the threshold (log x <= x - 1). Agreement of the two greedy loops on equal decisions. Without an excess the claim fails: the computed sum is negative for 1 and 5 counts at ratio 1/5, the significance is NaN, and the last group is not merged.')
d('C152','`Infer/FloatChi`: `BetterNormal.log_prob` and the expected counts with a known background, every result rounded, then the sum over the channels in any order (as in C149). Proof: the error of one channel against the size of its terms, from the relative error of the expected counts (C147 and a lemma for the sum with the background), then a lemma that adds up the channels.')
d('C153','`Infer/FloatW`: the two Poisson terms of `wstat` at the computed profile background (`FloatStat`), every result rounded, then the sum over the channels in any order. Proof: relative errors through the quadratic (its discriminant, the root, the cancelling numerator against a lower bound of the root), separately for channels without counts in one region, where a comparison of computed numbers may choose the other branch than exact arithmetic does (the two differ by as little); then C149 for each term and the lemma that adds up the channels. The hypothesis that the loss of digits is bounded is needed: C146 has a channel where all are lost.')
d('C154','`Grouping/FloatGv`: `significance_gv` with every result rounded and with NaN and infinities as values, and the loop of `group_sig_gv` with the comparisons of NumPy (false for NaN). Proof: without rounding and with positive uncertainties no NaN and no infinity arises and both functions are the ones of C05 and C11, by the properties of the profile background (C11) and induction on the loop; an uncertainty of zero is 0/0. With rounding the property is refuted by three inputs, followed operation by operation: the radicand of the profile background is negative, the sum of the terms is negative, the profile background is rounded to zero. `Grouping/FloatGvErrorProps`: where the variance is at most half of the background the error of every operation is carried, relative to the counts, through radicand, root, profile background and the two terms; a lost sign would need an excess below the rounding of the background, whose radicand is too small (C11 profile); so the significance is accurate, and the grouping is the exact one unless a significance is within one millionth of the threshold.')
d('C155','`Infer/FloatPg`: the Poisson and the Gaussian term of `pgstat` at the computed profile background (`FloatStat`), every result rounded, then the sum over the channels in any order. Proof: one lemma carries an absolute error relative to a scale through an operation; with it the errors of the linear and constant coefficient, of the discriminant and of the root, relative to the discriminant with all terms taken positive over its root; where the computed signs select another branch, the exact root is itself as small as the error; then C149 for the Poisson term, a Gaussian term that allows a background of zero, and the lemma that adds up the channels.')
d('C156','group_sig_normal with every addition, square, root, product and difference rounded, the order of the additions of np.add.reduceat arbitrary. Proved: counts of either sign summed in any order have an error of at most n units of 2^-52 of the sum of their absolute values, variances a relative error of (n+1) units, the limit sig*sqrt(variance) (n+3) units; hence if no interval of channels is that close to the threshold, groups and success are those of exact arithmetic. Refuted at the threshold: 1, 8 and 9 counts with errors equal to the square roots of the counts and a significance of 3, and an example in which a group that does not reach the threshold is formed.')
d('C157','_prefix_sum, _interval_sum, _scale_from_interval and _interval_back_ratio with every result rounded. Proved: whole counts are added up exactly, an interval of zeros has sum zero, with unit scale factors the ratio is that of the exposures rounded once, and in general the error is at most (3 + number of channels) units of 2^-52 of everything up to the end of the interval. Refuted relative to the interval: a channel with a background of 1 ± 1 after one with an uncertainty of 3*2^26 gets variance zero and a NaN significance.')
d('C158','group_optsig_normal with every result rounded, sums in any order. Proved: if no interval of channels and no bin extended beyond its optimal width is within rounding of the threshold (n + 4 units of 2^-52 of counts plus limit), the groups and the success are those of the exact model of C06. Refuted at the threshold: three channels are one group in exact arithmetic but two groups in float64, the first of them below the threshold.')
d('C159','The two loops of C06 run on the rounded significances of C151 and C154. Proved: if the threshold is above one and no interval is within 1e-6 of it (and, for a Gaussian background, the background is not too wide), groups and success are the exact ones; NaN counts as too low here, so empty channels do no harm. Refuted for wide Gaussian backgrounds: channels of significance below 2^-28 are accepted at a threshold of three.')
d('C160','SpectrumData.__init__ and Spectrum.__init__ with the list of warnings issued. Proved: the values are those of C21/C58 whatever is switched off; scales and grouping differ from the given ones iff warned; the remaining warnings characterised, none repeated. Refuted: Poisson counts of 10^9 + 1/2 pass without a warning (tolerance relative to the counts); zero statistical errors are warned of although the systematic error makes the total positive; a SYS_ERR keyword is dropped silently.')
d('C161','replace_string over an inductive type of values, str.replace as a left-to-right scan. Proved: with one key the string is cut into key-free pieces which are joined with the replacement; distinct one-character keys that occur in no replacement are replaced all at once; lists are mapped; dictionaries whose replaced keys differ keep their entries, and whatever the keys become, each replaced key is there once with the last value; values without keys are returned as they are. Refuted: replacements are made one after the other (a to b, b to c turns "ab" into "cc"); dictionary keys that become equal lose a value.')
d('C162','C151, C154, C157 and C159 put together: the four functions with every number computed in float64 (rounding to nearest, any order of additions in reduceat, any accurate logarithm) return the flags and success of the exact model, if no interval is within 2e-6 (Li-Ma) or 1e-6 + 1.25e9 δ (Gaussian background, δ the relative error of ratios and sums) of the threshold. Refuted for wide Gaussian backgrounds, as C159.')
# docstrings of the partial and refuted theorems are the record of what fails
DOC, WHERE = {}, {}
for f in sorted(glob.glob(str(ROOT / 'lean/Verif/**/*.lean'), recursive=True)):
    src = open(f).read()
    for m in re.finditer(r'/--((?:(?!-/).)*)-/\s*(?:set_option[^\n]*\n)?theorem (?:_root_\S*\.)?((C\d\d+)_\S*)', src, re.S):
        WHERE.setdefault(m[3], set()).add(f.split('/lean/')[1])
        if m[2].endswith('_refuted') or m[2].endswith('_partial'):
            t = ' '.join(m[1].split())
            t = re.sub(r'^\*\*(C\d+)[^*]*\*\*[.,:]?\s*', lambda k: '', t)
            DOC.setdefault(m[3], []).append((m[2], t))
# proved as stated; their refuted theorems are findings beyond the statement
BEYOND = {'C57', 'C60', 'C65'}
notes = {}
for pid, l in DOC.items():
    bad = [x for x in l if x[0].endswith('_refuted')]
    par = [x for x in l if x[0].endswith('_partial')]
    n = ''
    if bad: n += ('Proved as stated. Beyond the statement, shown false: ' if pid in BEYOND else 'The property as stated is false of the code; refuted: ') + ' '.join(f'[{a}] {b}' for a, b in bad)
    if par: n += (' ' if n else '') + 'Proved part: ' + ' '.join(f'[{a}] {b}' for a, b in par)
    notes[pid] = {'note': n, **({'status': 'proved'} if pid in BEYOND else {})}
(ROOT / 'tools/notes.json').write_text(json.dumps(notes, ensure_ascii=False, indent=1) + '\n')
P = [json.loads(l) for l in open(ROOT / 'properties.jsonl')]
out = (ROOT / 'tools/design_head.md').read_text()
out += '\n## Property by property\n\n'
for p in P:
    pid = p['id']
    out += f"**{pid}. {p['title']}.** {D.get(pid, '')} Theorems in {', '.join('`%s`' % w for w in sorted(WHERE.get(pid, [])))}.\n"
    for a, b in DOC.get(pid, []):
        out += f"  - `{a}`: {b}\n"
    out += '\n'
    if pid not in D: print('no design entry for', pid)
out += (ROOT / 'tools/design_tail.md').read_text()
(ROOT / 'DESIGN.md').write_text(out)

# Formal model of wcxve/elisa in Lean 4: design

This file is generated by `tools/design.py` from `tools/design_head.md`, the table in that script, the docstrings of the `_partial` and `_refuted`
theorems, and `tools/design_tail.md`.  `AXIOMS.md` lists the axioms of every property theorem (`tools/axioms.sh`).

## Technique

Each Python function is modelled as a small total Lean function with a comment citing the file and lines it models.

* Exceptions are values of `Except PyErr`; the exception class is part of the model, the message is not.
* Loops are structural or fuelled recursions; the fuel is proved sufficient.
* Objects with mutable attributes (parameters, observation data, samplers, caches, the tracker of parameter assignments) are state machines, and
  the theorems quantify over all histories of calls, including calls that fail half-way and garbage collection with reuse of addresses.
* Threads (progress bars, sampler listeners) are small-step interleaving semantics; the theorems quantify over all schedules.
* Array bookkeeping (grouping flags, name spaces, OGIP decoding, reshaping) is on lists and naturals.
* Arithmetic is over an ordered field or the real numbers with Mathlib's logarithm, exponential, integrals and measures.  Where floating point
  matters for a claim (bounds of parameters, confidence levels), NaN and infinities are values of the model, and rounding is an arbitrary function
  about which the theorem states what it needs.
* Libraries (NumPy's generators, optimisers, samplers, quadrature, arviz, XLA) are arguments of the model: functions or relations with the facts
  used stated as hypotheses.

Each property is stated with a small vocabulary of its own (`*Spec.lean`, or the section "Specification" at the head of a `*Props.lean` file)
which does not use the helpers of the model.  Next to each theorem stands an `example` that meets its hypotheses.

Where the code violates a property, the negation is proved with a witness (suffix `_refuted`; these are findings about the code, listed below), and
the strongest true restriction that was found is proved (suffix `_partial`).  A property with any such theorem has status `partial`.

`tools/mutations/*.py` and `tools/mutate.py` are the wrong programs the theorems were tested against; `seeded/LOG.jsonl` is the record.

## Property by property

**C01. Minimum-count grouping delivers what it reports.** The numba loop `group_min` as a list recursion; the specification `IsGroup flags a b` (start flag at a, -1 inside, next start or end at b) does not mention the loop. Loop invariant by induction over the channels. Theorems in `Verif/Grouping/Props.lean`.

**C02. Constant grouping never produces a short group.** The loop of `group_const` with its final merge; induction as for C01. Theorems in `Verif/Grouping/Props.lean`.
  - `C02_group_const_partial`: (restricted to segments with at least `c` channels; the other case is refuted by `C02_short_segment_refuted`).
  - `C02_short_segment_refuted`: whenever a non-empty segment has fewer than `c` channels, `group_const` reports success with flags that contain no group start at all, so the first channel of the segment is glued to whatever precedes the segment.

**C03. Optimal grouping respects the optimal bin width of every channel it contains.** The two nested loops of `group_opt` (fuelled recursion, fuel proved sufficient) and the bin-width formula of Kaastra & Bleeker over the reals. Theorems in `Verif/Grouping/Binning.lean`, `Verif/Grouping/BinningFormula.lean`, `Verif/Grouping/Props.lean`.

**C04. Optimal grouping with minimum counts delivers what it reports.** As C03 with the minimum-count test; the last group is merged backwards. Theorems in `Verif/Grouping/Props.lean`.

**C05. Significance grouping delivers what it reports.** The scan shared by `group_sig_*`, with the significance an arbitrary function of the sums; specialised to Li-Ma, Gaussian-variance and normal. Theorems in `Verif/Grouping/SigProps.lean`.

**C06. Optimal significance grouping delivers what it reports.** The `group_optsig_*` loops. Theorems in `Verif/Grouping/SigProps.lean`.
  - `C06_group_optsig_normal_partial`: The grouping is a partition, success means that every group meets the threshold, every group but the last meets it. Missing with respect to C06: the group does not stop at the *first* such channel, because the stopping condition overestimates the error (`C06_optsig_normal_refuted`); it stops at the first channel where that stronger condition holds.
  - `C06_optsig_normal_refuted`: With `bint = [1,1,1,1]`, counts `[1, 2.5, 10, 10]`, errors `[2, 2, 1, 1]` and `sig = 1`, the first two channels already reach the threshold (`3.5 ≥ √8`) but the code extends the first group to three channels.

**C07. Regrouping grouped scale factors equals grouping the raw channels once.** Grouped scale data as sums over an ordered field; grouping twice against once by regrouping finite sums. Theorems in `Verif/Grouping/ScaleProps.lean`.

**C08. Interval background ratio used while grouping equals the ratio of the final group.** Prefix sums of the scale data and the interval formula; equality with the ratio of the final group. Theorems in `Verif/Grouping/ScaleProps.lean`.

**C09. A grouped scale is a genuine mean of its channels.** The weighted mean of `_group_scale_data`: bounds by minimum and maximum, exactness of the scaled counts. Theorems in `Verif/Grouping/ScaleProps.lean`.

**C10. Li-Ma significance is real, signed and vanishes only without excess.** Li & Ma eq. 17 over the reals; non-negativity of the radicand through log x <= x - 1; sign and zeros; identity with the likelihood ratio. Theorems in `Verif/Grouping/SigValue.lean`.

**C11. Gaussian-background significance is real, signed and profiled correctly.** The profiled Gaussian background: it is the maximiser of the profile, significance real and signed. Theorems in `Verif/Grouping/SigValue.lean`.

**C12. Grouping conserves counts and variances.** set_grouping of ObservationData on lists; sums over the good channels of each group. Theorems in `Verif/Data/ObsProps.lean`.

**C13. Bad channels never influence the fitted data.** Two observations equal on the good channels. Theorems in `Verif/Data/ObsExamples.lean`, `Verif/Data/ObsProps.lean`.
  - `C13_auto_net_refuted`: Two legal observations that agree on all good channels but give different data.
  - `C13_bad_channels_ignored_partial`: If two observations agree on their good channels and both declare the same NET setting (or have a background), every array handed to a fit is the same, whatever the bad channels contain. Missing: the NET setting left open (`net=None`), see `C13_auto_net_refuted`.

**C14. Noticed groups are exactly those inside a requested energy range with a good channel.** The noticed mask as a predicate on groups; exact characterisation, and recovery of the whole spectrum from all channels. Theorems in `Verif/Data/ObsProps.lean`.

**C15. Energy range validation accepts exactly strictly increasing, disjoint, non-touching ranges.** The range checks and the object as a state machine: any history of set_erange/set_grouping/group calls keeps the derived data consistent; failed calls change nothing. Theorems in `Verif/Data/Construct.lean`.

**C16. Net spectrum and its error are propagated correctly.** Net counts and variance formulas; equality with the sum over the good channels of the group. Theorems in `Verif/Data/ObsProps.lean`.

**C17. Requested grouping is the grouping obtained.** ObservationData.group: segments of noticed channels, each method of C01-C06 on each segment, flags concatenated. Theorems in `Verif/Data/GroupExamples.lean`, `Verif/Data/GroupProps.lean`.
  - `C17_bad_channel_refuted`: Three channels with 1, 7, 1 counts, the middle one flagged bad, everything in range; `group('min', 2)` reports success, but the flags it writes are `[1, 1, -1]` and both noticed groups hold a single count.
  - `C17_preserve_refuted`: Flags `[1, -1, 1]` in the data, energy range `[2, 4]` that cuts through the first group, counts `[1, 1, 5]`: `group('min', 5, preserve_data_group=True)` reports success, but it dissolves the stored first group into single channels, and channel 1, alone in range, becomes a noticed group with one count.
  - `C17_fractional_scale_refuted`: Counts `[2, 1, 1]`, all good and in range: `group('min', 2.5)` reports success although a noticed group holds 2 < 2.5 counts.
  - `C17_varying_ratio_refuted`: `group('sig', 1)` adds the background-subtracted channels, `Σ (c_i - r_i b_i) = 2` with error 1, and reports success; the fit sees `Σ c_i - R Σ b_i = 0` with error 1 for the same group.
  - `C17_group_partial`: If the flags can be written back faithfully (`GroupTidy`) the call succeeds, the noticed groups of the result are exactly the groups the method returned for each energy range, the arrays handed to the fit are those of these groups, and success is reported exactly when every noticed group meets the requested scale. Missing with respect to C17: the hypothesis `GroupTidy` (`C17_bad_channel_refuted`, `C17_preserve_refuted`), for `const` at least one full group per range, and for the Gaussian significance a ratio that does not vary over the channels (`C17_varying_ratio_refuted`).
  - `C17_min_partial`: in terms of the counts handed to the fit.

**C18. Folding a model commutes with grouping.** Matrix folding over the grouped response equals the sum over the channels of the group (finite sums). Theorems in `Verif/Data/ObsProps.lean`.

**C19. Spectrum systematic errors enter exactly once.** Error columns of the OGIP reader followed by those of SpectrumData. Theorems in `Verif/Data/OgipSpec.lean`.
  - `C19_systematics_refuted`: is violated: for every accepted non-Poisson spectrum whose systematic errors (if any) are a column, the error of a channel is the documented `√(e² + (f·counts)²)` exactly in the channels where the systematic error vanishes; in all other channels the systematic variance is counted twice.
  - `C19_statistical_partial`: (partial: spectra without systematic errors). The error of an accepted non-Poisson spectrum is the statistical error of the counts.
  - `C19_keyword_refuted`: second violation: a systematic error given as header keyword (valid for all channels in the OGIP standard) is ignored whatever its value; likewise the keywords `QUALITY` and `GROUPING`.

**C20. OGIP response decoding is exact.** Decoder of the compressed response against an independent encoder specification; ARF multiplication; truncation. Theorems in `Verif/Data/OgipProps.lean`, `Verif/Infer/RefusalProps.lean`.

**C21. Spectrum validation: accepted spectra satisfy the documented invariants.** The constructors of SpectrumData, ResponseData and ObservationData as Except functions; accepted iff the documented conditions hold (non-integer Poisson counts only warn). Theorems in `Verif/Data/Construct.lean`, `Verif/Data/OgipSpec.lean`.

**C22. wstat background profile is the conditional maximum-likelihood background.** The closed form of the profiled background; maximality through the concave likelihood in one variable (log x <= x - 1), including the zero-count branches. Theorems in `Verif/Infer/LikProps.lean`.

**C23. pgstat background profile is the conditional maximum-likelihood background.** As C22 with a Gaussian background. Theorems in `Verif/Infer/LikProps.lean`.

**C24. Fit statistic of one Poisson channel is non-negative and zero only for a perfect model.** The Poisson deviance with x log x = 0 at 0. Theorems in `Verif/Infer/StatProps.lean`.

**C25. Total fit statistic is the sum over channels and data sets.** The likelihood groups of every statistic as in numpyro; sums of log probabilities; the constant dropped is the saturated model. Theorems in `Verif/Infer/StatProps.lean`.

**C26. Free parameters always start strictly inside their bounds.** UniformParameter as a state machine over a float type with NaN and infinities; every history of assignments. Theorems in `Verif/Models/ParamProps.lean`.
  - `C26_free_inside_partial`: A parameter created from ordinary numbers, and any history of assignments of ordinary numbers in which no bound of a free parameter is put exactly on the default and the scale is not switched to logarithmic below zero: the free parameter starts strictly inside its bounds and a logarithmic parameter has a positive lower bound. Missing from the full statement: the excluded assignments, see the refutations below.
  - `C26_bound_on_default_refuted`: Moving the lower bound of a free parameter onto its default is accepted and leaves the default on the boundary.
  - `C26_log_refuted`: Switching to a logarithmic scale is accepted with a non-positive lower bound; the prior is then log-uniform from zero.
  - `C26_nan_refuted`: NaN passes every range check: assigning it to `default`, `min` or `max` of an existing parameter is accepted (only the constructor rejects a NaN default), whatever the state and the rounding, unless another check fails.
  - `C26_infinite_bound_refuted`: With an infinite upper bound the reset of a default lying on the lower bound produces a NaN default: the parameter is created with default NaN.
  - `C26_rounding_refuted`: In floating point the reset can be rounded away. Between `2^52` and `2^53` doubles are exactly the integers; for every rounding that rounds to a nearest double there, the free parameter `Uniform(2^52, 2^52 + 2)` with default `2^52` keeps its default on the bound.

**C27. Rejected parameter updates leave the parameter unchanged.** The same state machine. Theorems in `Verif/Models/ParamProps.lean`.
  - `C27_rejected_partial`: A rejected assignment of `default`, `min`, `max` or `log` leaves the whole parameter unchanged — any state, any value, any rounding. Missing: the `fixed` setter, see `C27_fixed_refuted`.
  - `C27_fixed_refuted`: `fixed = True` on a parameter that was switched to a logarithmic scale with a zero lower bound raises, but the parameter is now frozen.

**C28. Parameter assignment bookkeeping mirrors the model at all times.** The assignment tracker as a store keyed by addresses, with creation, assignment and garbage collection in any order. Theorems in `Verif/Models/TrackerProps.lean`.
  - `C28_mirror_partial`: After any sequence of component creations, deletions and parameter assignments that never reuses the address of a deleted component: for every live component, the record of a parameter lists a slot exactly when that slot currently holds the parameter, without duplicates. Missing: histories in which Python reuses an address, see `C28_address_reuse_refuted`.
  - `C28_address_reuse_refuted`: When the address of a deleted component is reused, a surviving parameter still claims the slot of the new component: parameter 7 was used by a deleted component at address 1; the new component at address 1 holds parameter 8 in the same slot, yet both parameters are recorded as its owner, and both get the same name in a model made of that component.

**C29. Composite parameter labels denote the expression that is evaluated.** Label text of composite parameters, read back by an independent precedence-respecting parser; for every expression tree the parse evaluates to the same value. Theorems in `Verif/Models/LabelProps.lean`.

**C30. Composite parameter evaluation substitutes values and falls back to captured defaults.** Expression trees, substitution of supplied values, captured defaults. Theorems in `Verif/Models/CompileProps.lean`.

**C31. Model algebra is type-safe and evaluates pointwise.** Typed model expression trees (add/mul/conv), acceptance exactly by the typing rules; value by recursion. Theorems in `Verif/Models/AlgebraProps.lean`, `Verif/Models/EvalProps.lean`.

**C32. Additive components decompose the total model.** The list of additive sub-models. Theorems in `Verif/Models/AlgebraProps.lean`.
  - `C32_parts_sum_partial`: Evaluating with `comps=True` gives one entry per additive part, and the entries add up to the total model in every energy bin — if the convolutions are additive and the parts have different labels. (Missing: repeated labels, see `C32_repeated_refuted`; flux-normalising convolutions, see `C32_flux_convolution_refuted`.)
  - `C32_repeated_refuted`: For `a + a` the reported parts are a single entry with value `a`, whatever the value, because the dictionary of parts is keyed by the label.
  - `C32_flux_convolution_refuted`: For a flux-normalising convolution of a sum, each part is normalised to the full flux: the parts of `F(A + B)` add up to twice the flux of the model.

**C33. Positional and keyword evaluation agree.** Sequence, mapping and default evaluation of a compiled model. Theorems in `Verif/Models/CompileProps.lean`, `Verif/Models/OrderProps.lean`.
  - `C33_positional_keyword_partial`: Without sharing and with distinct names: a sequence of values in the order of `params_name` and the mapping of those names to those values reach the model function as the same parameters. (Missing: models in which a free parameter feeds several slots, see `C33_shared_refuted`.)
  - `C33_shared_refuted`: If a free parameter feeds two slots, **every** positional evaluation raises, although the names listed in `params_name` are the right arguments: the length is checked against the distinct names while the values are zipped strictly with the repeated ids.

**C34. Namespaces assign unique names.** Suffix generation for duplicate names. Theorems in `Verif/Util/NamespaceProps.lean`.
  - `C34_distinct_partial`: The generated names are pairwise distinct if and only if no given name looks like a generated one. For all lists of names and the three suffix styles. The unconditional statement fails, see `C34_distinct_refuted`.
  - `C34_distinct_refuted`: Generated names can coincide: a component class called `x_2` next to two components `x`; a parameter called `a'` next to two parameters `a`.
  - `C34_fit_names_partial`: Names of the components of a fit (`Name_2[data]`, …) are pairwise distinct whatever the data set names, as long as component class names contain no `[` and none of them is another one followed by `_k` (`k ≥ 2`).

**C35. Photon flux over a band is independent of the grid partition.** Additive components as interval functions; additivity over partitions, by telescoping of antiderivatives. Theorems in `Verif/Models/SpectraProps.lean`.

**C36. Power law bins are exact integrals.** Power law bins against the Mathlib integral, both branches of the index. Theorems in `Verif/Models/SpectraProps.lean`.

**C37. Broken power law bins are the integrals of the documented continuum.** Broken power law. Theorems in `Verif/Models/SpectraProps.lean`.
  - `C37_up_to_scale_partial`: What the code does deliver: on bins that do not contain the break, `Eb` times the bin value is the documented integral (so the documented bins when `Eb = 1`). (Missing: the factor `Eb`, and the bin containing the break, see the `_refuted` theorems.)
  - `C37_scale_refuted`: The normalisation is off by the factor `1 / Eb` for every break energy other than 1 keV, already for the flat spectrum.
  - `C37_break_bin_refuted`: In the bin that contains the break the low-energy index is used throughout, even when `Eb = 1`.

**C38. Flux-normalised power laws deliver the requested flux.** Normalisation constants of PLPhFlux and PLEnFlux against integrals. Theorems in `Verif/Models/SpectraProps.lean`.

**C39. Band function is continuous and BandEp agrees with Band and peaks at Ep.** Band and BandEp. Theorems in `Verif/Models/BandProps.lean`.
  - `C39_documented_partial`: Where the low- and high-energy indices are separated (`alpha - beta ≥ 1/Ec`), the code is the documented function at every positive energy. (Missing: the other documented parameter values, see `C39_discontinuous_refuted`.)
  - `C39_continuous_partial`: It is then continuous at every positive energy, in particular at the break.
  - `C39_discontinuous_refuted`: Otherwise (`alpha - beta < 1/Ec`, for instance `beta` close to or above `alpha`, values the declared parameter ranges allow) the spectrum jumps at 1 keV, whatever the other parameters.
  - `C39_bandEp_eq_band_partial`: `BandEp` is the Band function with `Ec = Ep / (2 + alpha)` when the indices are separated.
  - `C39_bandEp_refuted`: Otherwise the two components differ: the break of `BandEp` is not clipped.

**C40. Redshift and velocity shifts compose and conserve photons.** Redshift and velocity shift as operations on interval functions. Theorems in `Verif/Models/DensityProps.lean`, `Verif/Models/ShiftProps.lean`.

**C41. Flux convolution delivers the requested flux whatever the input normalisation.** PhFlux/EnFlux convolutions over the band grid of the code. Theorems in `Verif/Models/ShiftProps.lean`.

**C42. Numerical bin integration is exact for linear (trapz) and cubic (simpson) continua and linear in the continuum.** Trapezoid and Simpson rules of `_make_integral_fn`; exactness, bounds, and the error of the trapezoid by the second derivative. Theorems in `Verif/Models/LineProps.lean`, `Verif/Models/QuadProps.lean`.

**C43. Default statistic is always admissible.** `check_data_stat` and the choice of the default statistic on all combinations of flags. Theorems in `Verif/Infer/FitProps.lean`, `Verif/Infer/RefusalProps.lean`.

**C44. Fit input broadcasting pairs each data set with the intended model and statistic.** Broadcasting of data, model and statistic lists; the namespace of repeated statistics. Theorems in `Verif/Infer/FitProps.lean`.

**C45. Degrees of freedom and information criteria are consistent.** Degrees of freedom and information criteria over the reals. Theorems in `Verif/Infer/FitProps.lean`.
  - `C45_ic_partial`: With more than one degree of freedom the reported AIC is the deviance plus twice the number of parameters plus the non-negative small-sample correction `2k(k+1)/(n-k-1)`, and BIC is the deviance plus `k log n`.
  - `C45_aic_refuted`: A fit whose number of channels exceeds the number of free parameters by exactly one cannot produce a result: computing the AIC divides by zero.
  - `C45_aic_negative_refuted`: With fewer channels than parameters the "correction" is negative and the AIC is lower than the deviance plus twice the number of parameters.

**C46. Parallel batch evaluation equals sequential evaluation.** Reshape to (devices, n/devices), map, concatenate: equal to a sequential map; run sizes of boot and ppc. Theorems in `Verif/Infer/BatchProps.lean`.

**C47. Progress reporting counts every evaluation exactly once under every schedule.** An interleaving semantics (small steps) of the update calls; invariant over all schedules. Theorems in `Verif/Util/ProgressProps.lean`.
  - `C47_progress_partial`: (partial: for progress updates that are indivisible operations). For every positive number of evaluations and devices, every update rate, every schedule and every moment: the bar never exceeds the total; once it is closed it shows exactly the total and no thread has an update left; a state in which some thread has work left can always continue; and when all threads have finished, the bar is closed and shows the total. Missing from the full property: `bar.update` is not one indivisible operation, see `C47_progress_refuted`.
  - `C47_progress_refuted`: is violated by the real `tqdm.update`, whose `self.n += k` reads and writes in two operations: with two devices and one evaluation each there is a schedule after which all threads have finished and the bar is closed at 1 of 2 evaluations.

**C48. Confidence level conversion is monotone and idempotent.** Level conversion over the reals with the Gaussian measure of Mathlib, and in rounded arithmetic. Theorems in `Verif/Infer/LevelProps.lean`.
  - `C48_level_twice_refuted`: is violated in floating point: if rounding sends numbers within `2⁻⁵⁴` below 1 to 1 (as round to nearest does), then for all large numbers of standard deviations the first conversion gives exactly 1, which the second conversion in the bootstrap interval reads as "one standard deviation": the interval returned for such a `cl` is the 68% interval.

**C49. Bootstrap and posterior-predictive p-values are genuine frequencies.** p-values as frequencies over lists. Theorems in `Verif/Infer/BatchProps.lean`.

**C50. Parameter array and mapping conversions are inverse.** Parameter array/mapping conversions on association lists. Theorems in `Verif/Infer/ParamsProps.lean`.

**C51. Parameter selection is validated, ordered and duplicate-free.** Parameter selection on lists. Theorems in `Verif/Infer/ParamsProps.lean`.

**C52. Dataset simulation uses the distribution of the likelihood.** The simulator distributions of every statistic. Theorems in `Verif/Infer/SimProps.lean`.
  - `C52_sampling_partial`: (partial). For data a statistic can be used on — and, for `chi2`, when the error of the net counts is the error of the spectrum, i.e. without background — the sampling distribution of every channel is the one in the likelihood: the recorded log-likelihood of the data equals the logarithm of the density of the sampling distribution at the data with mean the model value, normalised to a perfect model. This holds for the "on" data and for the "off" data, which are simulated exactly when the statistic models them. Missing: `chi2` with background, see `C52_chi2_refuted`.
  - `C52_chi2_refuted`: is violated by `chi2` with background: whenever the net error of a channel exceeds the error of the spectrum (any background with a positive error and ratio), the data are simulated from a narrower distribution than the one in the likelihood; the two densities differ for every data value other than the model value.

**C53. Deviance residuals square to the deviance and carry the sign of the misfit.** Deviance residuals. Theorems in `Verif/Plot/ResidualProps.lean`.
  - `C53_default_dof_refuted`: fails for the functions on pairs of data with their default degrees of freedom and a sign: whenever the fit is perfect (`d = 0`, and every chi-square distribution function vanishes at `0`), the residual is infinite.
  - `C53_pearson_partial`: (Pearson residuals; partial). For every statistic, usable dataset and model in the numerical range, the Pearson residual of every channel exists and is the textbook one; for `wstat` this needs off counts in every channel.
  - `C53_pearson_refuted`: (Pearson residuals, refuted part). With `wstat`, a channel without off counts whose on counts do not exceed what the source alone explains has a profiled background of exactly zero, and its Pearson residual is `0 / 0`: it is undefined although data and model are perfectly sensible.

**C54. Parallel worker number is always between 1 and the number of devices.** get_parallel_number, set_cpu_cores, enable_x64. Theorems in `Verif/Util/ConfigProps.lean`.
  - `C54_set_cpu_cores_partial`: device-count flag (partial): when the requested number is positive and the machine has enough cores (or at least two), and each word of the previous flags is either a complete device-count flag or does not contain its name, the new value of `XLA_FLAGS` consists of exactly one device-count flag with a positive count not above the number of cores, followed by all other previous flags in their order. Missing from the full property: see `C54_set_cpu_cores_refuted`.
  - `C54_set_cpu_cores_refuted`: is violated by `set_cpu_cores` outside those conditions: on a single-core machine a request for two cores asks XLA for zero devices; a request for a negative number of cores is passed on unchecked; and a previous flag with an empty value stays, so that two device-count flags remain.
  - `C54_enable_x64_refuted`: related setting: `jax_enable_x64(False)` leaves double precision off only when the environment variable is unset or empty; with `JAX_ENABLE_X64=0` it switches double precision on.

**C55. Lorentz line is normalised to its flux parameter.** Lorentzian against the integral of Mathlib. Theorems in `Verif/Models/SpectraProps.lean`.

**C56. Net spectra are centred on the folded model.** Net spectra against the folded model. Theorems in `Verif/Infer/SimProps.lean`.
  - `C56_net_centred_partial`: (partial: all statistics but `pstat`). For every dataset, model and statistic, the net spectrum computed from the expected counts of the "on" and "off" data is the folded model spectrum: simulated net spectra are centred on the model.
  - `C56_pstat_refuted`: is violated by `pstat`: its known background is never subtracted, so the "net" spectrum exceeds the model by the background rate.

**C57. Probability integral transforms are probabilities and limits are flagged on the right side.** Probability integral transforms. Theorems in `Verif/Plot/PitProps.lean`, `Verif/Plot/ResidualProps.lean`.
  - `C57_wstat_lower_refuted`: (refuted: data below the observed ones). For `wstat` the lower value is not the share of the simulations below the net counts: simulated net counts less than one count, or one background count, below the data are left out.
  - `C57_function_flags_refuted`: fails for the library functions `quantile_residuals_poisson_poisson` and `quantile_residuals_poisson_normal`: a PIT value of `0` is flagged as *lower* limit (and not as upper), although the reported value is an upper bound that is not attained.

**C58. OGIP spectra follow the documented conventions.** OGIP spectrum keywords and columns. Theorems in `Verif/Data/OgipSpec.lean`.

**C59. Dataset name resolution.** Name resolution of a data set. Theorems in `Verif/Data/OgipSpec.lean`.

**C60. Photon energy grids are positive and increasing after reading.** Repair of the photon grid. Theorems in `Verif/Data/OgipSpec.lean`, `Verif/Infer/EndToEndFlux.lean`.
  - `C60_gap_refuted`: only the lower edges and the last upper edge are kept, so the photons of the gap are counted in the bin below it (and with overlapping bins, part of a bin is lost). Here the file has the bins 1-2 and 3-4, but a flat model gets the bin 1-3.

**C61. Parameter collection lists every free parameter exactly once.** Parameter collection over histories of the tracker of C28. Theorems in `Verif/Models/CompileProps.lean`, `Verif/Models/InfoProps.lean`.

**C62. Reported energy flux is accurate to the grid spacing.** Energy flux by mid energies against the integral; explicit bound. Theorems in `Verif/Models/ShiftProps.lean`.

**C63. Luminosity and isotropic energy refer to the rest frame.** Luminosity and isotropic energy as integrals in the rest frame. Theorems in `Verif/Models/ShiftProps.lean`.

**C64. Numerically stabilised branches agree with the closed form.** Stabilised branches of the smoothly broken power law and the black body against the closed forms. Theorems in `Verif/Models/BandProps.lean`, `Verif/Models/ShapeProps.lean`.
  - `C64_sbpl_doc_refuted`: The documented formula is a different one (reference energy 1 keV, factor 2 instead of 1/2).

**C65. Interval parameters average the model over the interval.** The fold over the interval parameters, with the adaptive quadrature of quadax an argument; theorems for quadratures that are exact on continuous integrands (idealisation) and averages by Mathlib integrals. Theorems in `Verif/Models/IntervalProps.lean`.
  - `C65_empty_interval_refuted`: An interval of zero length is accepted, and the value is then not the value of the model (the quotient `0/0`, here 0).

**C66. Absorption components are transmissions.** Multiplicative components. Theorems in `Verif/Models/MulProps.lean`.
  - `C66_plabs_partial`: Power law absorption gives exact bin averages for every index except 1. (Missing: index 1.)
  - `C66_plabs_index_one_refuted`: For index 1, inside the declared range `[0, 5]`, every bin is NaN although the documented average is a positive number.

**C67. The linear-logarithmic plot axis is a faithful scale.** LinLogTransform and its ticks. Theorems in `Verif/Plot/LinLogProps.lean`, `Verif/Plot/TickSpaceProps.lean`.
  - `C67_decade_refuted`: The documentation of `LinLogScale` says that with `lin_scale == 1` the range `[0, lin_thresh]` takes the same space as one decade. It never does: it takes `1 / (1 - 1/base)` decades (10/9 of a decade for base ten).

**C68. Kernel smoothing returns weighted means or NaN.** Gaussian kernel smoothing. Theorems in `Verif/Plot/SmoothProps.lean`.
  - `C68_one_sigma_refuted`: The documentation says the default threshold keeps estimates up to about one sigma from the nearest datum (a weight of 0.683 at one sigma). At one sigma from an only datum the weight is `exp(-1/2) < 0.683` and the estimate is NaN.

**C69. Scaled colours are valid colours and gradients are ordered.** Hexadecimal colour strings, character by character. Theorems in `Verif/Plot/SmoothProps.lean`.

**C70. Numerical gradients of Python components.** Finite differences of Python components. Theorems in `Verif/Util/FiniteDiffProps.lean`.
  - `C70_method_partial`: (choice of method, part that holds). As long as the component was not evaluated before its method was last set, an evaluation uses the method set last.
  - `C70_method_refuted`: After the first evaluation the setter has no effect: whatever is set later, the method of the first evaluation stays in use, although the attribute reports the new one.

**C71. The unit cube of the nested samplers carries the prior.** Unit cube transforms of the nested samplers: push-forward of the uniform measure. Theorems in `Verif/Infer/NestedPriorProps.lean`.
  - `C71_evidence_partial`: (all parameters, evidence). When every prior is float-valued, averaging the likelihood over the unit cube (what the nested sampler integrates) is averaging it over the joint prior: the evidence the samplers estimate is the evidence of the model, and the mapped cube points follow the prior.
  - `C71_discrete_refuted`: The cube is built with the parameter's own sample type, so the coordinate of an integer-valued parameter loses its fraction: a Bernoulli parameter with success probability one half is always 1 inside the cube, although the prior gives it probability one half.
  - `C71_ultranest_labels_refuted`: UltraNest's own report can attach a cube coordinate's name to another parameter's coordinate: its labels are in model order, the coordinates in alphabetical order. The returned samples are not affected.

**C72. Bookkeeping of the parallel ensemble samplers.** Walkers, seeds, listener thread, start method as small state machines. Theorems in `Verif/Infer/EnsembleProps.lean`, `Verif/Infer/WalkProps.lean`.
  - `C72_listener_refuted`: If fewer than `n` samplers send their last message (one raised an exception), the listener never ends, whatever arrives: the thread stays blocked on the queue.
  - `C72_start_method_refuted`: After a failed run the start method has become `spawn`.
  - `C72_jitter_partial`: (start positions, part that holds). With jitters in `[0.9, 1.1)` every walker starts within ten percent of the initial point, on the same side of zero, and two walkers start at different values of a coordinate exactly when their jitters differ — provided the initial coordinate is not zero.
  - `C72_jitter_refuted`: A coordinate whose initial value is zero (in the unconstrained space: a parameter whose default is the centre of its bounds) starts at zero for every walker whatever the jitter, and moves that combine walkers affinely — stretch and differential moves — keep it there for ever.
  - `C72_stuck_refuted`: If a parameter starts at zero (in the unconstrained space) in every walker — as it does when its initial value is zero, see `C72_jitter_refuted` — then it is still zero in every walker after any number of moves of zeus, whatever the likelihood, the random numbers and the tuning.

**C73. Profile-likelihood intervals of composite parameters and functions.** The penalised search of profile intervals. Theorems in `Verif/Infer/ProfileProps.lean`.
  - `C73_profile_partial`: (partial: with the tolerance the code really has, and for functions that do not vanish at the best fit). For every fit statistic with best value `best = D mle`, every function and every tolerance `rtol > 0`: the search starts in the joint minimum, whose value is the best statistic; every value the function takes inside the confidence region belongs to the computed set; every computed value is within the relative distance `√(rtol·Δ)` of such a value; hence for a positive function the ends of the computed set enclose the exact ends and exceed them by at most that relative amount. Missing with respect to C73: the documentation promises the relative tolerance `rtol` (`C73_rtol_refuted`), and a best-fit value of zero (`C73_zero_refuted`).
  - `C73_rtol_refuted`: violation of the documented tolerance: for the statistic `θ²`, the function `θ + 10`, the default tolerance `1e-6` and one sigma (`Δ = 1`), all values inside the confidence region are at most `11`, but the computed set contains a value that exceeds `11` by more than four times the relative tolerance.
  - `C73_zero_refuted`: violation for a function that vanishes at the best fit: the start point of the search is not a number, whatever the tolerance, although the confidence region is an interval around zero.
  - `C73_negative_rtol_refuted`: violation of the argument check: every negative tolerance is accepted, and then the joint loss has no minimum: with any function that does not vanish everywhere it falls below every bound.
  - `C73_decreasing_refuted`: violation for parameters with a prior bounded from above only (e.g. a right-truncated normal prior of numpyro, whose support `(-∞, b)` is parametrised by `b - exp(x)`): the transformation decreases, so the interval is always reported upside down, with a positive "lower" and a negative "upper" error.

**C74. Reported fluxes, luminosities and energies belong to the right model and parameters.** Flux/lumin/eiso bookkeeping. Theorems in `Verif/Infer/IntensityProps.lean`.
  - `C74_components_partial`: (components, partial). When no component name contains an underscore, every component of every dataset is reported with its own value, error and interval.
  - `C74_labels_refuted`: (components, refuted). Names may contain underscores, and then two different components of two datasets can share one internal label: component `b_c` of dataset `a` is reported with the standard error and the interval of component `c` of dataset `a_b`.
  - `C74_override_refuted`: (override, refuted). With the profile method the interval and the standard error ignore `params` (as the warning says) but the reported value and the errors use it: for every fit whose search returns the interval `[1/2, 3/2]` around the best fit `1`, overriding the parameter by `10` reports the value `10`, the interval `[1/2, 3/2]` and two negative "errors".
  - `C74_unit_flux_refuted`: (unit flux, refuted). The search divides by the logarithm of the flux at the best fit: if that flux is exactly 1 in the working unit, the function handed to the minimiser has no value anywhere.
  - `C74_dist_refuted`: (distribution, refuted). The distribution returned with the bootstrap intervals lists every model parameter as if it were an intensity, and omits every dataset that shares the model of an earlier one.

**C75. Covariance matrices are propagated and selected correctly.** Covariance propagation, selection and posterior covariance. Theorems in `Verif/Infer/CovarProps.lean`, `Verif/Infer/RefusalProps.lean`.
  - `C75_posterior_partial`: posterior samples (partial: only free parameters are requested, and there are at least two columns). The entries are the sample covariances of the requested names. Missing with respect to C75: `C75_single_refuted` and `C75_posterior_composite_refuted`.
  - `C75_single_refuted`: violation: with a single free parameter and no functions the posterior covariance is never available, because the 1x1 matrix is reduced to a number before it is indexed; the same happens in a bootstrap of a one-parameter model.
  - `C75_posterior_composite_refuted`: violation for composite parameters: the samples hold the free parameters only. A request for one free and one composite parameter, each of which is accepted, returns the variance of the free parameter in all four entries: as variance of the composite parameter and as covariance of the two.
  - `C75_posterior_fn_refuted`: second violation for composite parameters: a user function of a composite parameter passes the check of the function but fails with a `KeyError` when it is evaluated on the posterior samples.
  - `C75_samples_partial`: number of samples (partial): bootstrap samples, and more than 10000 posterior samples, are always reduced to a multiple of the number of devices, dropping fewer than that number of them (from 10000). Missing: `C75_samples_refuted`.
  - `C75_samples_refuted`: violation: at most 10000 posterior samples are not reduced, so that the default parallel evaluation of functions fails whenever their number is no multiple of the number of devices.

**C76. Component settings take effect exactly when assigned.** Component settings as a state machine. Theorems in `Verif/Models/SettingsProps.lean`.
  - `C76_band_ordered_partial`: With ordinary numbers the band is never empty or reversed, whatever the order of the assignments. Missing: NaN passes the checks, `C76_unvalidated_refuted`.
  - `C76_unvalidated_refuted`: for unusable settings, all of which are accepted: NaN ends, a logarithmic band that starts at zero, zero or negative numbers of points. With one point there is no bin at all, the flux in the band is computed to be 0 for every model and the normalisation divides by it.

**C77. Repeated bootstraps and predictive checks are independent of history.** Bootstrap and predictive-check results as functions of the arguments, over histories of calls. Theorems in `Verif/Infer/ResampleProps.lean`.
  - `C77_ppc_rows_partial`: When every fit of a predictive check is valid, row `i` of the replicated parameters, of the simulated data and of the fits belong to the same draw. Missing: invalid fits, `C77_ppc_rows_refuted`.
  - `C77_ppc_rows_refuted`: for predictive checks with an invalid fit: the replicated parameters keep the rows that the data and the fits lost, so that rows no longer correspond.

**C78. Plots show the current simulation.** The plot cache keyed by the address of a result. Theorems in `Verif/Infer/ResampleProps.lean`.
  - `C78_plots_current_partial`: As long as no address is used twice, every plotted quantity that is cached shows the current simulation: in any history of simulations and plots, what the next plot shows is computed from the last simulation (or from the absence of one). Missing: Python reusing the address of a discarded simulation, `C78_stale_plot_refuted`.
  - `C78_stale_plot_refuted`: when the address of a discarded simulation is used again: plot, simulate twice, plot. The second simulation is stored elsewhere while the first is alive; the third may take the address of the first; the cache then believes that nothing changed and the plot shows the first simulation.

**C79. Maximum-likelihood fits do not depend on earlier calls.** Maximum-likelihood drivers as state machines over call histories. Theorems in `Verif/Infer/MaxLikeProps.lean`, `Verif/Infer/RefusalProps.lean`.
  - `C79_lm_partial`: If every earlier `lm` call used the settings of this one, the outcome is that of a fresh fit. Missing: histories in which the settings differ (see `C79_lm_refuted`).
  - `C79_ns_partial`: If no search was interrupted and every earlier `ns` call used the settings of this one, Minuit starts from a sample of the search whose total log-likelihood is the largest of all samples, whatever `init` was; and the outcome is that of a fresh fit. Missing: histories with other settings or an interrupted search (see `C79_ns_interrupted`, `C79_ns_refuted`).
  - `C79_lm_refuted`: After a first `lm` call that failed because its step limit was too small, calling again with the default limit fails in the same way, although a new fit would succeed.
  - `C79_ns_refuted`: After a search that was interrupted, retrying fails with an `AttributeError`, although a new fit would succeed.

**C80. BlackJAX NUTS adapts during warm-up only.** BlackJAX kernel wrapper: warm-up counter, adaptation and mean acceptance. Theorems in `Verif/Infer/KernelProps.lean`.
  - `C80_resume_partial`: A run resumed from a saved state that has already made at least `warmup` transitions (the `warmup` of the resumed run) never adapts: every transition uses the same tuning. Missing: saved states with fewer transitions (`C80_resume_refuted`).
  - `C80_resume_refuted`: A state saved after a run with `warmup=2, steps=2`, used as `post_warmup_state` of a run with a larger `warmup` (for instance the default 2000), goes on being adapted although the resumed run has no warm-up transitions: its draws are made with changing step sizes.
  - `C80_resume_mean_refuted`: If the resumed run is given another `warmup`, the statistic shown is no mean of acceptance rates: after four sampling transitions with rate `1/2` and one resumed transition with rate `1` it is neither the mean over all five nor that of the resumed one.

**C81. Chains start, resume and are recorded as asked.** Chain initial states and their records. Theorems in `Verif/Infer/KernelProps.lean`.

**C82. Credible intervals have the stated content.** Equal-tailed and highest-density intervals of finite samples. Theorems in `Verif/Infer/CredibleProps.lean`, `Verif/Infer/RefusalProps.lean`.
  - `C82_hdi_median_refuted`: The errors reported with `hdi=True` are measured from the median, which the highest-density interval need not contain: both errors can be negative.
  - `C82_fn_partial`: With at most ten thousand draws, asking for the interval of a function that just returns a parameter gives exactly what asking for the parameter gives (equal-tailed). Missing: more draws (a random subsample is used), and `hdi=True` (`C82_hdi_fn_refuted`).
  - `C82_hdi_fn_refuted`: `ci(fn=…, hdi=True)`, and with it `flux`, `lumin` and `eiso` with `hdi=True`, raise for every function, sample and level.

**C83. LOO-PIT values are leave-one-out probabilities.** LOO-PIT. Theorems in `Verif/Infer/LooPitProps.lean`.
  - `C83_wstat_partial`: For `wstat` with whole counts the same is true if the exposure ratio or its inverse is a whole number. Missing: other ratios (`C83_wstat_refuted`).
  - `C83_wstat_refuted`: For a ratio of `3/10` the value used as "the next smaller observation" is not the next smaller one: five counts with background three (net 4.1) have 3.8 as lower value, although four counts without background give 4.0; the weight of such simulations is in neither end.

**C84. Stored posteriors describe the right data sets and parameters.** Names in the stored posterior. Theorems in `Verif/Infer/IDataProps.lean`.
  - `C84_point_partial`: The entry called like a data set holds the log-likelihoods of its channels, provided it is not called `channels`, `total` or `<other>_total`.
  - `C84_point_refuted`: With data sets `A` and `A_total`, the entry `A_total` is the sum over `A`.
  - `C84_deviance_partial`: The deviance table has one row per data set, in order, and a last row `total`, holding minus twice the log-likelihood of the data set and of all data, for all distinct names other than `total`.
  - `C84_deviance_refuted`: A data set called `total` has no row of its own: with it and one more data set the table has two rows, and the row `total` is not the deviance of that data set.
  - `C84_ess_partial`: The relative efficiency is read back as stored, always; the effective sample sizes are read back as stored, in order, if no parameter is called `reff`.
  - `C84_ess_refuted`: The effective sample size of a parameter called `reff` is lost.
  - `C84_reff_partial`: For jaxns it is the share of effective draws: between zero and one, and the number of draws times it is the effective sample size.
  - `C84_reff_refuted`: For nautilus and UltraNest the "relative" efficiency is the effective sample size itself, whatever the number of draws: above one in every run with an effective sample size above one (the default asks for 3000), and the number of draws times it is not the effective sample size unless there is a single draw.
  - `C84_pareto_partial`: Every channel is counted once; a channel in `bad` or `very bad` has `k ≥ good_k`, and the counts are those of the printed ranges if no `k` is exactly `good_k` or one.
  - `C84_pareto_refuted`: A channel with `k` exactly `good_k` is counted as `bad` although the row is headed `(good_k, 1]`.

**C85. The resolution of a response is its full width at half maximum.** ResponseData.fwhm and channel_fwhm. Theorems in `Verif/Data/FwhmProps.lean`.
  - `C85_binning_refuted`: The optimal binning is meant to use bins narrower than the resolution where there are many counts (Kaastra & Bleeker); a response with enough rows of undefined FWHM switches this off: here the widths do not depend on the counts at all.

**C86. Simulated observations follow the model.** CompiledModel.simulate and simulate_from_data with the generator as a parameter; the result is described by the means, widths and generator states asked for, and the expected counts of every later group compared with those of the fit. Theorems in `Verif/Infer/RefusalProps.lean`, `Verif/Infer/SimObsExamples.lean`, `Verif/Infer/SimObsProps.lean`.
  - `C86_descending_refuted`: An observation whose channels are listed in descending order of energy can be loaded, given energy ranges and fitted, but no model can ever be simulated from its configuration: whatever the generator, the model and the exposures, the call raises.
  - `C86_zero_scale_refuted`: With an area scale of zero in a good channel, the counts are drawn with mean zero, but the simulated observation records an area scale of one: a fit of the very model that was simulated expects one count.
  - `C86_zero_background_scale_refuted`: An observation with Poisson counts whose background scale is zero in a channel flagged bad is legal, but no model can be simulated from its configuration: the mean of that channel is not finite and the call raises.
  - `C86_background_rate_refuted`: With another background exposure, the simulated background has the expected counts of the data, not their rate: the expected background counts do not depend on the exposure asked for, while the exposure recorded does, so doubling it halves the background rate of the simulation and of the source region.
  - `C86_unbiased_partial`: Take a simulated observation, group and filter it in any way, and let the model be evaluated at the parameters it was simulated with. In every group whose good channels have the same positive scales, the expected counts of the source spectrum are exactly what the fit expects there: its source counts plus its background ratio times the expected background counts.
  - `C86_from_data_total_partial`: For an additive model and a legal observation in a consistent state, the simulation succeeds if the exposures are positive, the photon grid is that of the response, the channel energies do not run backwards (first lower edge below last upper edge) and, for Poisson source counts, the means are not negative and no background scale is zero.

**C87. A parameter slot holds what was assigned to it.** The setter of a slot as a function on a world of components, slots, trackers and parameter objects; worlds reachable by any history without address reuse; what is asked for is a separate relation, the effect is proved from the invariant of the bookkeeping (C28) and the constructor of parameters (C26). Theorems in `Verif/Models/SlotProps.lean`.
  - `C87_label_refuted`: Linking two slots changes the label of the first: the parameter shown as `\alpha` in the first component, given to a slot declared with the label `K`, is shown as `K` everywhere, though the first slot was not assigned.
  - `C87_mapping_refuted`: The same three numbers given as a mapping and as a sequence make different parameters: a parameter declared on a logarithmic scale becomes linear when a mapping leaves out `log`, and one declared fixed becomes free when it leaves out `fixed`.
  - `C87_misspelt_refuted`: A misspelt optional key is ignored: `{"default", "min", "max", "Fixed": True}` makes a free parameter, while any value for `fixed` other than a Boolean counts by its truth, so that `"fixed": "False"` fixes it.

**C88. Calling a component class fills its slots as the signature says.** The generated signature, the binding of Python arguments, the loop of Component.__init__ over the declared parameters, and the lookup of super(type(self), self).__init__ along the method resolution order. Theorems in `Verif/Models/ConstructProps.lean`.
  - `C88_subclass_refuted`: A concrete component cannot be subclassed: whatever its bases, a class derived from it (first in the method resolution order after the subclass) raises `TypeError` on every instantiation, whether or not it declares parameters of its own.
  - `C88_failed_refuted`: A constructor that raises is not without effect: a parameter given to an earlier slot is recorded as belonging to a component that never came to exist.

**C89. The value and errors shown are the ones computed.** report_interval over rationals with an arbitrary rounding to nearest; the result is the triple of numbers and the power of ten the text denotes. Theorems in `Verif/Util/ReportProps.lean`.
  - `C89_value_partial`: The value shown is the value up to half a unit of the last decimal shown, in scientific notation with one digit before the point, exactly for values of at most `10^-min_exponent` or at least `10^max_exponent`. Missing: values whose significand rounds up to the next power of ten, see `C89_carry_refuted`, and zero, see `C89_zero_refuted`.
  - `C89_carry_refuted`: Whenever the significand rounds up to the next power of ten, the value shown is too small by a factor of ten: the significand is shown as one, with the exponent of the decade below.
  - `C89_zero_refuted`: A value of zero cannot be reported at all.

**C90. A batch of parameters gives the batch of results.** Arrays as a shape and a function of indices; jax.vmap by its documentation; the nested vmap of _prepare_eval proved equal to elementwise evaluation by induction over the number of axes; ce over the reals. Theorems in `Verif/Models/BatchProps.lean`.
  - `C90_array_partial`: Without sharing and with distinct names, an array of shape `(..., number of parameters)` is evaluated row by row: the result has the leading shape and its element `idx` is the value of the model for the parameters `a[idx, :]` in the order of `params_name`. (Missing: models in which a free parameter feeds several slots, for which every array is refused, `C90_shared_refuted`.)
  - `C90_shared_refuted`: A free parameter that feeds two slots makes every array of parameters an error, whatever its shape.
  - `C90_fixed_refuted`: Fixed parameters can be given by name, but in a model without free parameters arrays of them are not a batch: nothing is mapped over, the arrays meet the energy bins. With two bins (model 10 K, 20 K) and K = [1, 5] the result is one spectrum, [10, 100], whose bins belong to different amplitudes, instead of the two spectra [10, 20] and [50, 100]; and different shapes are not noticed.

**C91. A component of XSPEC gets the values of its own parameters and keeps its energy grid.** The generator of XSPEC components (slot names, declared configuration, order of the values), the derivative-method cache, and the extension of the energy grid by geomspace over the reals with the slice that undoes it; the XSPEC functions themselves are arbitrary. Theorems in `Verif/Models/XspecProps.lean`.
  - `C91_bounds_refuted`: A parameter of XSPEC without bounds (a switch or a scale) and with a default below -1 or above 1e10 has a default outside the bounds declared for it, so that the component cannot be created.
  - `C91_norm_refuted`: An additive model with a parameter that is itself called `norm`: XSPEC gets one value less than it has parameters.
  - `C91_grad_refuted`: A method assigned after the first evaluation (or compilation) is reported by `grad_method` but never used.
  - `C91_convolution_partial`: For an increasing grid strictly inside the extension and at least one bin above it, the convolution is evaluated on a strictly increasing grid from `low_energy` to `high_energy` that contains the grid, and the bins returned are those of the grid: bin `i` of the result is the bin from edge `i` to edge `i + 1`. (Missing: a grid that begins at `low_energy` or ends at `high_energy`, `C91_touching_refuted`; no bins above, `C91_nhigh_refuted`.)
  - `C91_nhigh_refuted`: With `high_ngrid=0` the slice `[nlow:-0]` is empty: the convolved model has no bins at all.
  - `C91_touching_refuted`: A grid that begins exactly at `low_energy` (or ends at `high_energy`: 100 keV by default) is accepted, although the message of the error says that it must be inside; then the extension consists of bins of no width.

**C92. Spectra and bands are drawn bin by bin.** The cuts, slices and loops of _plot_step and _plot_ribbon; a curve is the list of its pieces as matplotlib draws steps with where=post; the pieces of all curves proved equal to the bins by induction over the cuts. Theorems in `Verif/Plot/DrawProps.lean`.
  - `C92_narrow_refuted`: Channels that all lie within one photon bin: no photon bin is left to draw, and the plot of the unfolded spectrum raises.
  - `C92_limits_refuted`: Data with a zero whose maximum is below `1e-26` (energy fluxes in erg can be that small): the lower limit is the logarithm of zero.

**C93. Bands hold the stated share and marks are outside the widest band.** np.quantile as in C48; the share held by a band counted in the sorted sample; the residual panel as a function of levels, simulations and residuals; levels from a standard normal measure. Theorems in `Verif/Plot/BandsProps.lean`.
  - `C93_nolevel_refuted`: No level at all is accepted by the configuration; marking outliers then raises.
  - `C93_mle_refuted`: The curve of a maximum likelihood fit need not lie in its band: the simulations can all be on one side of it.
  - `C93_nocl_refuted`: For a posterior, asking for the unfolded model without a level raises.

**C94. Diagnostic plots show what their axes say.** Plotting positions, order statistics of simulations, binomial quantiles; coverage proved in the product measure of independent values by counting how many are below a threshold; the goodness-of-fit curve against the p-value of C49. Theorems in `Verif/Plot/DiagProps.lean`.
  - `C94_gof_partial`: To the right of a point of the curve, up to the next, the height of the point is the p-value: the share of the simulations that reach the deviance. The text beside the curve is the p-value, or says that it is below `1 / n` when no simulation reaches the observation. (Missing: at the points themselves, `C94_gof_refuted`.)
  - `C94_gof_refuted`: The axis says `P(D >= d)`, but at a simulated deviance the curve shows the share of the simulations above it: `1 / n` too little; at the largest it shows zero, which a logarithmic axis cannot show.
  - `C94_total_partial`: The panel `total` holds the values of all data sets, and every other data set keeps its own. (Missing: a data set called `total`, `C94_total_refuted`.)
  - `C94_total_refuted`: A data set may be called `total`; its panel then shows the values of all data sets instead of its own.

**C95. The plots asked for are the plots shown.** re.split as a scanner over characters; the figures and panels as lists; exact rational arithmetic for the conversion factor. Theorems in `Verif/Plot/RequestProps.lean`.
  - `C95_space_refuted`: White space before the first word (or after the last) is not ignored: the request is refused, and so is an empty one.
  - `C95_both_refuted`: Two ways of showing `E N(E)`, or two types of residuals, asked for together: only one panel is made, the others are left out without notice.

**C96. A Data object is assembled from the files asked for.** A file system as a partial function from paths to contents; the regular expression for file{n} as a scanner proved to find the last brace; Data(...) as a sequence of reads in the Except monad over the models of the readers (C58-C60), the row selection with Python indexing of negative rows included. Theorems in `Verif/Data/LoadProps.lean`.
  - `C96_directory_refuted`: A pair of braces in the middle of a path is taken for a number as well: a spectrum in a directory whose name contains braces is never read — the text before the brace is opened instead, or, if the text between the braces is no integer, the call raises `ValueError`.
  - `C96_negative_refuted`: A negative number is not refused: `file{-1}` is the last row but one, `file{-2}` the one before, and so on; nothing selects the last row in this way.

**C97. The statistic of a fit follows from the files.** Composition of the models of the file readers (C58-C60, C96), of the object with its history of calls (C15-C21), of the check of statistics (C43) and of the likelihoods (C22-C25) in one theorem. The specification mentions only the content of the files, the flags and ranges in force and the fluxes: groups of channels, sums over used channels, effective scales, the encoded matrix and likelihood ratios. Theorems in `Verif/Infer/EndToEndFlux.lean`, `Verif/Infer/EndToEndProps.lean`.

**C98. Residuals of a posterior are leave-one-out averages.** The draws of a posterior as a list of fluxes with log weights per channel; residuals built on the models of the likelihoods (C22-C25), of Pearson residuals (C53), of the leave-one-out expectation (C83) and of the limits (C57). Weighted means are handled by induction on the list of draws. Theorems in `Verif/Plot/LooResidualProps.lean`.
  - `C98_pearson_partial`: (Pearson residuals; partial). The residual of each channel exists (for `wstat`: if there are off counts in every channel, see C53), its size is the leave-one-out mean of the sizes of the Pearson residuals of the draws — hence at most their root mean square — and its sign is that of the net counts minus the leave-one-out mean of the source counts.
  - `C98_mle_refuted`: the residuals of the maximum likelihood model are not returned, although this model is at hand (`PosteriorResult.mle` computes it when needed), unless a posterior predictive check was run before.

**C99. Plots show the simulations in force.** A small machine: the simulations held at an address, one cached method and one that calls it, each with the address last seen and a dictionary; histories are lists of runs and calls, with addresses as Python may give them out. Invariant: a cache whose address is the present one holds values of the present simulations. Theorems in `Verif/Plot/CacheProps.lean`.
  - `C99_fresh_partial`: (partial). As long as no run of simulations is stored at an address used before by earlier ones, every cached quantity — also one computed from another cached quantity — is, at every call of every history, the one that belongs to the simulations in force.
  - `C99_drawn_partial`: (plots between runs; partial). Whatever addresses Python gives out: if the plot is drawn between any two runs of simulations (and at least once before the second run that follows the making of the plot), it always shows the simulations in force.
  - `C99_stale_refuted`: simulations are run and a plot is drawn, two more runs follow, and the memory of the first run, free since the second, is given to the third: the plot then shows the first simulations. All addresses are as Python may give them out.

**C100. Plot settings are always usable.** The setters of the settings as total functions on real numbers, NaN, infinities and texts; validity is an invariant of histories of assignments. The colours are a machine with a cached palette; the specification (colours in force, palette in force) is stated on the history alone. Theorems in `Verif/Plot/SettingsProps.lean`.
  - `C100_colors_partial`: After any history of choosing colours, resetting them, changing the palette or the settings and reading the colours, reading gives the colours that were last chosen for all data sets, if they have not been reset since (a refused choice changes nothing), and otherwise one colour per data set from the palette in the settings. Missing: palettes `None` and `'customized'`, see `C100_colors_refuted`.
  - `C100_colors_refuted`: for the palette `None`, which the settings accept: a new plotter then has no colours.
  - `C100_markers_partial`: There is one marker per data set, and up to eight data sets have different markers. Missing: more data sets, see `C100_markers_refuted`.
  - `C100_markers_refuted`: for nine data sets, although the list has nine entries: the third and the ninth have the same marker.
  - `C100_ndata_partial`: If no data set is called "total", the numbers of data are those of the data sets, and `total` is their sum. Missing: a data set of this name, see `C100_ndata_refuted`.
  - `C100_ndata_refuted`: for a data set called "total": its own number of data is replaced.

**C101. Components of a model cannot be lost, replaced or mistyped.** Objects with class attributes (plain, read-only and settable properties), an own dictionary and the flag; Python attribute access as total functions; invariants of histories of assignments and deletions. Theorems in `Verif/Models/ProtectProps.lean`.
  - `C101_method_refuted`: A method of a model can be replaced: `model.compile = x` is accepted, and `model.compile` is then `x`.
  - `C101_define_partial`: A class body with a tuple of parameter declarations is accepted exactly if the tuple is not empty, all its entries are `ParamConfig`s and all methods that have to be static are; the class then has exactly the declared parameters. Missing: configurations that are not tuples, see `C101_define_refuted`.
  - `C101_define_refuted`: A list of declarations is accepted like a tuple, but the class gets no parameters: the attributes are never made into parameters.

**C102. Saved results are loaded as they were saved.** A disk of byte lists; a save empties the file and writes a prefix of the encoded result, cut at any byte; the codec is a parameter that reads sequentially. The last accepted save of a path is a notion on histories alone. Theorems in `Verif/Infer/StoreProps.lean`.
  - `C102_interrupted_partial`: If the last save to a file was cut off at any point, loading the file (with any algorithm) gives the result of this save or an exception, never another result and never one that was saved before. Missing: that the result saved before is still there, see `C102_interrupted_refuted`.
  - `C102_interrupted_refuted`: Saving over an existing file destroys it before anything is written: if the save is cut off at once (pickling raises, say), the result saved before can no longer be loaded, whatever the results.

**C103. Posterior summaries.** Draws as a list of chains of real numbers; mean, standard deviation (both conventions), the draw of highest likelihood and the divergence counter, transcribed; bounds, invariance under regrouping and affine equivariance by algebra on sums. Theorems in `Verif/Infer/SummaryProps.lean`.
  - `C103_std_refuted`: The standard deviation reported for a flux or other function is not the one reported for a parameter, even if the function returns the parameter: its square is smaller by the factor (n-1)/n, and a single draw has the standard deviation 0 instead of NaN.
  - `C103_divergence_partial`: The number of divergent draws is reported for samplers that record it, 0 for samplers that record nothing. Missing: samplers that record other statistics only, see `C103_divergence_refuted`.
  - `C103_divergence_refuted`: for a sampler whose statistics have no entry `diverging`: reading the number raises `KeyError`.

**C104. A Gaussian line carries its photon flux.** The normal density and the trapezoidal rule over real numbers; the flux from the Gaussian integral in Mathlib, the error of the bins from the second derivative, the failure for narrow lines as a limit of the bin integral against the value given to the bin. Theorems in `Verif/Models/LineProps.lean`.
  - `C104_flux_partial`: On a grid of bins no wider than `h` the bins of a Gaussian line add up to the photon flux of the line in the range of the grid up to `K (e₁ - e₀) h² / (12 √(2π) σ³)`: small if the bins are narrow compared to the width of the line. Missing: lines narrower than the bins, see `C104_edge_refuted` and `C104_inside_refuted`.
  - `C104_edge_refuted`: If the line energy is an edge of the grid, the two bins beside it hold at least `(b - a) / (2 √(2π) σ)` times the flux of the line: more than any multiple `m` of it if the line is narrow enough.
  - `C104_inside_refuted`: As the line becomes narrow, the bin that contains it holds all the flux `K`, but the value given to the bin tends to zero: it is at most a constant times `σ`.

**C105. Process-wide settings survive sampling runs.** The four process-wide settings as a state, every run as a transition that may raise, foreign code as arbitrary functions of the state; induction over the history. Theorems in `Verif/Infer/ProcessProps.lean`.
  - `C105_restored_partial`: If foreign code leaves the process-wide settings alone but for the random numbers UltraNest draws, then after any history of sampling runs, bootstraps and predictive checks, whether they raised or not, the JAX flag is as before; if no run that starts processes raised, so is the start method; if no run of nautilus raised, so is its `Pool`; if no run of UltraNest raised, so is NumPy's random state. Missing: runs that raise, see `C105_raised_refuted`.
  - `C105_raised_refuted`: (a constructor that refuses its arguments, a failing worker, an interrupt): the start method stays `spawn` and, for nautilus, the `Pool` class stays patched — for the rest of the process, whatever runs follow, successful ones included.
  - `C105_random_refuted`: when a run of UltraNest raises: what is left does not depend on the state before, so that all random numbers drawn later by the user's own code are the same whatever seed the user had set.

**C106. Evidence and effective sample size of nested sampling.** What every nested sampler hands over, as a record, and the result built from it; case analysis. Theorems in `Verif/Infer/EvidenceProps.lean`.
  - `C106_nautilus_partial`: A run of nautilus that reached its goal is described but for the error of the evidence, which is never known; one that did not raises.
  - `C106_read_refuted`: With the default arguments every such call raises `RuntimeError` after reading; with `print_result=False` the draws are those of the earlier run, but the effective sample size is reported as 0 and the evidence as NaN whatever the log says.

**C107. The plot of the effective area shows the effective area.** The data of the curve and of the hatching as lists of real numbers; the intervals of noticed bins by sortedness of the bin edges, induction over the noticed ranges. Theorems in `Verif/Plot/RespPlotProps.lean`.
  - `C107_curve_partial`: The curve runs over the photon bins in order, one height per bin; the last bin, and every bin whose area is that of the next one, is shown with its own area. Missing: the other bins, see `C107_curve_refuted`.
  - `C107_curve_refuted`: A bin is drawn with the area of the next bin: the curve is the effective area only if all bins have the same.
  - `C107_hatch_partial`: For photon bins in increasing order and noticed ranges that are in order and apart, a photon bin inside a noticed range is not hatched and every other bin is. The call succeeds exactly if every noticed range contains a photon bin. Missing: the case it does not, see `C107_narrow_refuted`.
  - `C107_narrow_refuted`: the call raises `IndexError`.

**C108. The plot of the response matrix shows every channel at its energy.** np.insert as a recursive function over positions; the cells of the mesh for any number of gaps by induction over the channels. Theorems in `Verif/Plot/RespPlotProps.lean`.
  - `C108_hatch_partial`: If the channels follow each other without a gap, a channel inside a noticed range is not hatched and every other channel is. Missing: channels with gaps, see `C108_hatch_refuted`.
  - `C108_hatch_refuted`: Four channels 1–2, 3–4, 5–6, 6–7 keV and the noticed range 1–4 keV: the upper edge of the second gap is taken from the wrong channel, and the noticed channel 3–4 keV is hatched.

**C109. The plot of a spectrum shows the spectrum.** The bars and significances as functions of the noticed groups; rates pointwise from the description of the observation, sign and finiteness of the significance from the formulas of Li & Ma and Vianello, with a witness of a non-finite value for zero errors. Theorems in `Verif/Data/PlotSpecProps.lean`.
  - `C109_sig_partial`: The significance drawn for a group is finite, has the sign of the excess of the group over the background and an error bar of one unless there is no excess, in these cases: Poisson data with Poisson background; Poisson data with a Gaussian background whose error and ratio are positive (`ratio_pos`: the ratio always is if its counts are non-negative); Poisson data without background, or Gaussian data, with a positive error. Missing: errors that are zero, see `C109_sig_refuted`.
  - `C109_sig_refuted`: Data with zero errors are accepted (with a warning), and then no finite significance is drawn: for Gaussian data without background whenever the good channels of the group have zero errors, for Poisson data with a Gaussian background whenever those of the background have.

**C110. The displayed name of a model denotes the model.** The name as rendered tokens of an unambiguous grammar (as C29), read back into the denotation of the model by induction over the model; str.replace as a recursive scan, with invariants over the ids already replaced. Theorems in `Verif/Models/ModelLabelProps.lean`.

**C111. The posterior of a flux is the flux of the posterior.** The tree of fluxes evaluated at overridden draws, with the quantiles and moments of C48 and C103; scaling of quantiles and moments by a factor, sums of components by induction. Theorems in `Verif/Infer/PostIntensityProps.lean`.
  - `C111_components_partial`: Asking for the components of a model raises when it has fewer than two; otherwise the mean flux of a dataset is the sum of the mean fluxes of its components, and so is the flux of every single draw. Missing: medians and intervals, see `C111_components_refuted`.
  - `C111_components_refuted`: The median of the flux of a dataset need not be the sum of the medians of its components, at any level: reported medians and intervals of components cannot be added.

**C112. The label of a unit shows the unit.** Labels as character lists, read back by a small reader (parts separated by TeX blanks, exponents in braces); str.replace as in C110; induction over bases and mantissas. Theorems in `Verif/Util/UnitLabelProps.lean`.
  - `C112_unit_partial`: For every unit with bases, whatever their order in the text: the label is a TeX formula in roman type in which one reads exactly the bases of the unit, each once and with its own power, in the order in which they are found in the text and bases found at one place in their given order, after the scale of the unit, a mantissa of one in front of a power of ten being left out. Missing: mantissas of several digits that end in one, see `C112_scale_refuted`.
  - `C112_scale_refuted`: A mantissa that ends in one loses that digit together with the sign of multiplication: the scale `1.1 × 10⁵` is shown as `1.10⁵`, `21 × 10³` as `210³`.

**C113. Quantile residuals of Poisson data are standard normal.** Data and noise as the product of the Poisson and the uniform measure of Mathlib; the event that the residual is at most x is cut into one interval of the noise per count, whose lengths telescope to the normal distribution function. Theorems in `Verif/Plot/QuantResProps.lean`.

**C114. Components without a closed integral have the documented shape.** Component formulas over the reals; the local slope is the derivative of log N with respect to log E, and a lemma shows that slope at every energy and the value at one determine the function. Theorems in `Verif/Models/ShapeProps.lean`.

**C115. Names of data sets and parameters keep their values apart.** The trace of the probabilistic model as a dictionary of named sites, with replacement as in numpyro; names as strings of any characters; injectivity of name plus ending under a separation condition on the names, counterexamples without it. Theorems in `Verif/Infer/SitesProps.lean`.
  - `C115_results_partial`: If no name of a data set is another name followed by a reserved ending, and no parameter has the name of a site, then the parameters, model values and likelihoods reported under each name are those of that parameter and that data set, for any number of data sets and any order of evaluation. Missing: names that run into each other, see the refuted theorems.
  - `C115_models_refuted`: With data sets `A` and `A_Non_model`, the expected counts reported for `A` are the spectrum of the other one.
  - `C115_params_refuted`: A composite parameter with the name of a data set is reported as the spectrum of that data set.
  - `C115_counts_partial`: For data sets whose names do not run into each other and are not `channels` or `total`, the simulated (or observed) data contain, under the names of each data set, its own on counts, off counts and net spectrum, the stacked spectra and the total; fitting a simulation substitutes for each measurement its own simulated counts. Missing: other names, see `C115_counts_refuted`.
  - `C115_substituted_partial`: The data substituted when a simulation is fitted: for each measurement its own simulated counts.
  - `C115_counts_refuted`: With data sets `A` and `A_Non`, the counts used when a simulation of `A` is fitted are the net spectrum of the other data set.
  - `C115_total_refuted`: The spectrum of a data set called `total` is replaced by the total counts.

**C116. N(E), E N(E), E^2 N(E) and band fluxes of a model are what their names say.** Differential spectra bin by bin over the reals; the mean value theorem for integrals gives the energy at which the continuum is read off. Theorems in `Verif/Models/DensityProps.lean`.

**C117. Runs of the ensemble samplers are reproducible, can be continued and are thinned as asked.** One step of the walkers is an arbitrary function of positions, generator and tuning state; runs are iterates of it. What emcee 3.1.6 does with a random state it cannot use (it goes on with the generator of the process) is an assumption about the library, stated in the model. Theorems in `Verif/Infer/WalkProps.lean`.
  - `C117_continue_partial`: Without tuning, a run of `n₁` draws followed by a run of `n₂` draws from the states the first one returned — in another process, with another generator — is the uninterrupted run of `n₁ + n₂` draws, draw for draw, and ends in the same states. Missing: tuned moves, see `C117_continue_refuted`.
  - `C117_continue_refuted`: With tuned moves (the default of zeus) a continued run is not the uninterrupted one: the tuning starts again.
  - `C117_emcee_seed_refuted`: In a fresh run with emcee the seed only enters the start positions: with the same positions the draws are the same for all seeds, namely those of the generator found in each process.
  - `C117_emcee_process_refuted`: Two runs with the same seed and the same positions in processes with different generators differ.

**C118. WAIC is the widely applicable information criterion of all channels.** The stored log-likelihoods of C84 (names of data sets included), stacked over chains and draws; ArviZ's `waic` modelled as documented. Jensen's inequality is proved, not assumed. Theorems in `Verif/Infer/WaicProps.lean`.

**C119. Fit statistics are convex in the source counts and in the amplitudes of the components.** The likelihoods are log-concave in (source, background) jointly (weighted arithmetic-geometric mean inequality), hence the profiled deviances of C25 are convex in the source counts; folding is linear, so the total is convex in the amplitudes, and Mathlib turns local into global minima. Stated for `fitSites`, the model of what the code evaluates. Theorems in `Verif/Infer/ConvexProps.lean`.

**C120. At a best fit the expected counts add up to the observed counts.** For cstat the deviance is a differentiable function of a common factor; for wstat it is bounded above by the function which scales the profiled background too, with equality at the fit (the profile minimises, C22). A local minimum of that bound has derivative zero, which is the balance of counts. Theorems in `Verif/Infer/BalanceProps.lean`.

**C121. Error bars of on/off counts are likelihood-ratio intervals.** The curve the code solves is minus twice the logarithm of the profile likelihood (C22); it is convex with one minimum (C119) and continuous, so each level above the minimum is reached once above the net counts and, if it is below the value at zero, once below them. The root finder is any function which returns a root when there is one and the start is finite; the starts are shown to be finite (a net signal that needs a lower error bar exceeds half a count). In an empty channel the start is not finite (`C121_empty`). `pgstat_errors` has no body. Theorems in `Verif/Plot/ErrorBarsProps.lean`.

**C122. Trimming empty rows off a response keeps the folded counts.** The runs of consecutive indices (`np.split`), the marking of the runs that reach an end and boolean indexing are modelled; proved by splitting the rows into leading empty, middle and trailing empty ones. The code that calls it is commented out (ogip.py:583), which the gaps theorem explains. Theorems in `Verif/Data/DropZerosProps.lean`.
  - `C122_trim_partial`: A matrix whose empty rows are at its beginning and at its end only, with some row that is not empty: trimming succeeds, leaves exactly the rows between, keeps one more energy than there are rows, and the counts folded with the trimmed matrix over the trimmed energy bins are those folded before, for every spectrum and channel.
  - `C122_gap_refuted`: With an empty row between two that are not, the matrix loses that row but the energy grid keeps its bin: what comes back does not belong together.

**C123. Coarser grouping never increases the fit statistic at given parameters.** Composes the model of `set_grouping` (C16) with that of the statistics (C25). Proved by showing that the good channels of a coarse group are the disjoint union of those of the fine groups inside it, and that the product of the likelihood ratios of channels is at most that of their sum (tangent of the logarithm for Poisson, Sedrakyan for Gauss, the sum of the profiled backgrounds for wstat and pgstat). Theorems in `Verif/Infer/MergeExamples.lean`, `Verif/Infer/MergeProps.lean`.
  - `C123_scales_refuted`: Two channels with ten counts each and area scales 1 and 1/2. With fluxes 11 and 24 (expected counts 11 and 12) the C statistic is about 0.45; after merging the channels the scale is 2/3, 23.3 of 20 counts are expected, and the statistic is about 0.50.
  - `C123_coarser_partial`: A statistic is applied to the same observation in two groupings, with the same energy ranges; every group boundary of the second is one of the first. If the scale factors do not vary between the good channels, then at any fluxes of the energy bins the second grouping has the smaller (or the same) statistic. Missing for the full property: varying scale factors, where the merged scale is an average weighted with the data, and the inequality fails (`C123_scales_refuted`).

**C124. The fit statistic has the gradient its residuals say.** Uses the models of the statistics and of the aggregation (C25). Proved without differentiating the profiled background: the deviance of a channel lies between the deviance with the background kept fixed and its tangent, which follows from the optimality conditions in C22 and C23; then the chain rule. What JAX computes as the gradient is not modelled, only that the statistic has one. Theorems in `Verif/Infer/GradProps.lean`.

**C125. Components of a fit have distinct names that tell their data sets.** Model of templates as lists of pieces (Python's reading of the text of a template is not modelled), of the unicode tables, of the refusal test and of the naming of components in a fit. The accepted configurations are characterised exactly; histories by induction. Distinctness by cutting a name at its first mark. Two refutations: a precision in a template and letters that share a superscript form. Theorems in `Verif/Util/SuffixCfgProps.lean`.
  - `C125_distinct_partial`: With plain suffixes, templates `pre%spost` and `pre'%spost'` that begin with marks `m` and `m'` not occurring in the class names (`m'` also not in the number suffix) give every component of a fit its own name, whatever the data sets are called. Not proved, because false: distinct names for every accepted configuration — see `C125_template_refuted` (a template that cuts the suffix) and `C125_unicode_refuted`.
  - `C125_template_refuted`: `set_suffix_config` accepts the template `[%.3s]`; the components for the data sets `NaI1` and `NaI2` then have the same name.
  - `C125_unicode_partial`: With unicode suffixes every component of a fit has its own name if the data suffixes can be written in superscript without loss and the class names contain no subscript digits. Not proved, because false: distinct names for all data set names — see `C125_unicode_refuted`.
  - `C125_unicode_refuted`: Several letters share a superscript form (`C` and `c`, `F` and `f`, `Q` and `q`, `S` and `s`, `Y` and `y`, `Z` and `z`): the components for the data sets `detC` and `detc` have the same name although the configuration is accepted.

**C126. The statistics agree where their assumptions agree.** Uses the models of the statistics (C22-C25). Explicit inequalities, proved from the tangent of the Poisson likelihood and the maximum of a Gaussian or Poisson term with a linear tilt; chi2 against cstat from the remainder of the logarithm. Statements are about the numbers the likelihood functions report. Theorems in `Verif/Infer/LimitProps.lean`.

**C127. Best-fit amplitudes are unique where the data can tell the components apart.** Uses the models of C25 and C119. Strict convexity at the mid-point from strict log-concavity of the factors of the likelihood (also of the profiled one, whose two maximisers differ in the source or in the background factor); then the sum over channels and data sets. Theorems in `Verif/Infer/UniqueProps.lean`.

**C128. The tables shown for a fit and its result agree with the result.** Model the dictionaries behind the tables (`ndata`, `deviance`, `mle`) and the rows built from them, the formatting of numbers being a parameter. Prove by the lookups in dictionaries with distinct keys. A data set named `total` refutes the claim for the table of statistics. Theorems in `Verif/Infer/TablesProps.lean`.
  - `C128_stat_partial`: If the data sets have distinct names, none of them `total`, the table has one row per data set, in order: its name, its statistic, the value of that statistic to the nearest hundredth, and the number of its channels. The last row shows the total of the statistics to the nearest hundredth, the total number of channels, and that number less the number of free parameters as degrees of freedom. The values shown add up to the total shown, within half a hundredth per row. Missing: a data set may be named `total`, see `C128_total_refuted`.
  - `C128_total_refuted`: With a single data set of this name the table has no row for it: whatever its statistic, the only row is that of the total.

**C129. The order of the data sets does not matter.** Reuse the model of the input parsing (C44) and of the likelihood (C24, C25); characterise acceptance, and each kind of refusal, by conditions on the members of the list, which permutations preserve; the totals are sums over the data sets. Theorems in `Verif/Infer/OrderProps.lean`.

**C130. The fit statistic has no jumps and a best fit exists.** On the model of the likelihood (C22-C25), show that each branch of the background formulas agrees with its neighbour on the boundary, so that the profiled background is continuous; compose with the clipped source counts, sum over channels and data sets, and apply compactness. A constant model whose bound excludes the observed counts shows that open bounds may have no best fit. Theorems in `Verif/Infer/ExistProps.lean`.

**C131. Deviance residuals and Pearson residuals of a fit agree within stated bounds.** Model: the deviances of `Infer/LikSpec.lean` and the Pearson residuals of `Plot/Residual.lean`. Proof: `log x` lies between `2(x-1)/(x+1)` and `(x-1/x)/2`, which bounds the Poisson deviance by the squared Pearson residual on either side; the best background of the two residuals is the same, by uniqueness of the maximum; signs from C53. Theorems in `Verif/Plot/PearsonProps.lean`.

**C132. Freezing or linking a parameter gives a nested model.** Model: `Models/Info.lean` (compile, slot values); freezing changes the kind and the default of a parameter, linking the content of a slot. Proof: the frozen value moves from the captured defaults to the supplied values and back; counting by erasing one element of the set of free parameters. Linking holds when the expression stays inside the bounds of the replaced parameter; the code does not ask for that and `C132_link_refuted` gives a linked model that fits better than the original. Theorems in `Verif/Models/NestProps.lean`.
  - `C132_link_partial`: A slot holding a free parameter used nowhere else is given an expression of other parameters. Whenever the value of that expression is inside the bounds of the replaced parameter, the linked model receives the same values as the original model does with that parameter set to the value of the expression. `_partial`: the value of the expression must be inside the bounds of the replaced parameter, which the code does not require (`C132_link_refuted`).
  - `C132_link_refuted`: Linking a slot to a parameter with wider bounds widens what the slot can receive: with the normalisations bounded by `[0, 10]` and `[0, 1]`, the model with the second linked to the first reaches the value 0 of a statistic of which the original model never gets below 16, with one free parameter less.

**C133. Library models are never negative and never undefined within the default bounds.** Model: `Models/Catalogue.lean`, all 26 additive and multiplicative and 6 convolution classes with their declared bounds, in *checked* arithmetic (a division by zero, a logarithm or power of a non-positive number is no number), as a library for `Models/Algebra.lean`. Proof: class by class, then induction over the model expression; agreement with the plain formulas used elsewhere is part of the statement. Partial: the declared bounds of Gauss, GAbs, Edge and PLAbs include a value for which the formula is no number (`C133_bounds_refuted`: zero line width, which XSPEC users write for a narrow line, gives NaN). Theorems in `Verif/Models/CatalogueProps.lean`.
  - `C133_component_partial`: A library component with all its parameters inside the bounds its class declares gives, in every bin of every grid of positive increasing energies, a number that is not negative, the one of the plain formula. `_partial`: the declared bounds include points where the formula is no number (`Regular` excludes them); see `C133_bounds_refuted`.
  - `C133_bounds_refuted`: Settings the declared bounds allow and the formulas do not: a Gaussian line or absorption line of zero width, an edge at zero energy, and the index 1 of `PLAbs` give no number, at any energy.
  - `C133_model_partial`: A model built from library components by `+`, `*` and convolutions, with parameters inside the declared bounds, is not negative in any bin of any grid of positive increasing energies.
  - `C133_add_absorb_partial`: Adding a component to a model never lowers it in any bin; putting an absorber in front of it never raises it.

**C134. Fluxes, luminosities and energies of a fit agree with each other and with the spectrum.** The three front ends (grid, sum over the grid, factor of the unit) on top of the model of `_intensity_ci` (C74) and of the spectra (C35, C62, C63). The entries of the three methods are related by one lemma on the factor; the grids by their scaling. The refusal of unusable bands is refuted (one grid point gives 0, a reversed band a negative flux). Theorems in `Verif/Infer/FitFluxProps.lean`.
  - `C134_one_point_refuted`: (refuted: unusable requests are accepted). With a grid of one point `flux` reports zero for every data set, every model and both kinds of flux, and does not complain.
  - `C134_reversed_refuted`: (refuted: a reversed band is accepted). Asking for the photon flux of `N = 1` between 2 and 1 keV on a linear grid of two points reports -1, and does not complain.

**C135. A Bayesian fit samples prior times likelihood.** The log density of `numpyro_model` is modelled as the sum over its sample sites (priors of the free parameters, `_Non` and `_Noff` of every data set) and compared with the total deviance of the helper; the evidence by integration against any probability measure, using the continuity of C130. That the mode is the best fit is proved for uniform priors, and on the logarithmic scale for log-uniform ones; on the linear scale it is refuted. Theorems in `Verif/Infer/PosteriorProps.lean`.
  - `C135_mode_refuted`: (refuted: log-uniform priors). With the default log-uniform prior of a parameter the most probable value of the parameter is not its best-fit value: for five counts the best-fit value is 5, and 4 is more probable.

**C136. Components can be switched off and amplitudes are linear.** Proved over the catalogue of C133: the value of a bin under scaling of the amplitude, the off setting of every class, and the meaning of expressions when the parameters of one component change. For additive components the claim holds in the limit of zero amplitude only; the declared lower bound 1e-10 refutes it for fits of empty data. Theorems in `Verif/Models/OffProps.lean`.
  - `C136_added_partial`: (adding a component). A model with a further additive component of the library, whose amplitude is multiplied by `t`, is the model plus `t` times the component, in every bin; so as the amplitude goes to zero, every continuous statistic goes to that of the model alone. `_partial`: the amplitude zero is not within the declared bounds, so the smaller model is a limit of the larger one and not a case of it; see `C136_added_refuted`.
  - `C136_added_refuted`: (refuted: added components). With the declared bounds, adding a component can make the best fit worse: with no counts in the data, one thermal spectrum fits strictly better than two thermal spectra with any parameters, because no amplitude is below 1e-10.

**C137. A fit is fixed when it is made; objects do not share arrays.** A heap model: arrays live at addresses, objects hold addresses, operations copy or share exactly where the code does. Invariants over all histories of operations give the claims about fits, spectra and other data sets; the last clause is refuted, because set_grouping keeps the array it is given and writes quality flags into it. Theorems in `Verif/Data/AliasCurrent.lean`, `Verif/Data/AliasProps.lean`.
  - `C137_current_partial`: (up to date). As long as the user writes into no array and asks for none, the grouped arrays of every data set are at all times those of its flags and energy ranges, computed from the values its spectrum, response and background have - also when one array of flags has been given to several data sets. `_partial`: false when arrays are written to, see `C137_argument_refuted`, `C137_restore_refuted`, `C137_net_refuted`.
  - `C137_argument_refuted`: (refuted: the array given). `set_grouping` keeps the array it is given, and writes to it: an array of flags starting with -1 is changed, and when the user writes into it later, the data are grouped otherwise the next time the energy range is set.
  - `C137_restore_refuted`: (refuted: restoring). The flags a new data set shows are those of the spectrum itself: after the user has written into `data.grouping`, `set_grouping(None)` does not restore the flags the spectrum was made with, and another data set of the same spectrum is grouped otherwise the next time its energy range is set.
  - `C137_net_refuted`: (refuted: net counts). Without background, `net_counts` is `spec_counts`: writing into the one changes the other.

**C138. Fitting repeated observations together is fitting their sum.** The deviance of each channel is reduced to the negative log likelihood of its expected counts (C25); with one response the expected counts are the exposure times a common rate, so the rate enters the joint and the summed statistic in the same way. A worked example shows that wstat differs. Theorems in `Verif/Infer/StackProps.lean`.

**C139. Units of exposure, area and extraction region do not matter.** Modelled by the existing observation, grouping and likelihood models (Data/Obs, Data/Group, Infer/Likelihood). The specification only rescales the input files. Proved by comparing the two runs: the mean scale of an interval of groups is linear in the unit whenever the interval has a good channel (and the default 1 is used for both otherwise), so all ratios agree; then by induction over the calls. Theorems in `Verif/Data/Units.lean`.

**C140. A longer observation with the same rates multiplies the statistic.** Uses the models of set_grouping and of the five likelihoods. The specification multiplies the contents of the files. Proved channel by channel: each background profile and each log-probability is homogeneous of degree one, in every branch; then summed over channels and data sets. Theorems in `Verif/Infer/LongerProps.lean`.

**C141. Splitting photon-energy bins leaves the statistic unchanged.** A coarse response is a list of bins with their rows and the energies at which they are split. Model values are integrals of a photon spectrum (proved per component); sums of integrals over the parts give the integral over the bin, so the fold and then the likelihood agree. The broken power law violates it: a witness with unit response whose expected counts change from 3/2 to 7/6. Theorems in `Verif/Infer/RefineProps.lean`.
  - `C141_refine_partial`: Splitting any bins of a response at any energies, all parts keeping the response of the bin, changes neither the expected counts nor the fitted background nor the log-likelihood of any channel, for every statistic and every model whose values are integrals over the bins (all fluxes in the numerical range of the program). Missing: models whose values are not integrals over the bins, see `C141_components_partial` and `C141_broken_refuted`.
  - `C141_components_partial`: The power law, its flux-normalised forms and the Lorentz line are such models, and so are sums, constant multiples and redshifted forms of such models. Missing: components that the program integrates numerically, and products with energy-dependent factors; their values for a bin are approximations that depend on the bin.
  - `C141_broken_refuted`: splitting a bin that contains the break, with the response unchanged, changes the expected counts and with them the statistic: the bin counts wholly as below the break when its lower edge is.
  - `C141_numeric_refuted`: whichever way a bin is split, the exponential spectrum (a cut-off power law of index 0) gives fewer photons in the parts together than in the bin, so with the response unchanged there are fewer expected counts.

**C142. Data outside the chosen energy ranges never influence a fit.** Relational theorem over two observations: `SameInside R` constrains only good channels inside the ranges `R`. Flags: every noticed group lies inside a range, so the arrays are equal. Adaptive grouping: the masked arrays of every range are equal, hence flags, report and arrays. Session: induction over the list of calls, with `R` any list holding all ranges asked for. The net setting left open without background is a counterexample (`C142_net_refuted`): a negative count outside the range changes the area scale inside. Theorems in `Verif/Infer/IgnoreProps.lean`.
  - `C142_flags_partial`: Two observations that hold the same data in the good channels inside the energy ranges hand the same arrays to a fit, for all grouping flags, whatever the channels outside the ranges contain.
  - `C142_group_partial`: Two observations that hold the same data in the good channels inside the energy ranges are grouped alike by every method and scale: the same flags, the same success report and the same arrays for the fit, or the same exception, whatever the channels outside the ranges contain.
  - `C142_session_partial`: Whatever energy ranges, grouping flags and grouping methods a user asks for, in any order and number: if two data sets hold the same data in the good channels inside some range that was ever asked for (`R` holds at least the initial ranges and those of every call), then the same calls are accepted, and the fit receives the same data from both. Missing with respect to C142: the net setting left open without a background, see `C142_net_refuted`.
  - `C142_statistic_partial`: The statistic of a data set (every channel's contribution), for every statistic and every model, is the same for both data sets after the same calls.
  - `C142_net_refuted`: for a spectrum without background whose net setting is left open (the default): a negative count in a good channel *outside* the energy range makes the whole spectrum a net spectrum and changes the area scale, hence the expected counts, inside the range.

**C143. A goodness-of-fit test rejects a correct model as often as its level says.** The p-value is the modelled `pValue`; data and simulations form a random vector with an exchangeable law. At most k+1 entries of a vector have at most k others at or above them (exactly k+1 without ties), which bounds the probability by (floor(alpha n)+1)/(n+1). Equality for independent draws from a law without atoms refutes the claim: p = 0 occurs with probability 1/(n+1). Limit in the number of simulations is alpha. Theorems in `Verif/Infer/TestLevelProps.lean`.
  - `C143_level_partial`: If the model is correct, a test that rejects when the reported p-value is at most `α` rejects with probability at most `(⌊α n⌋ + 1) / (n + 1)`, hence at most `α + 1 / (n + 1)`, `n` being the number of simulations - whatever the statistic and its distribution, ties included. Missing with respect to C143: the extra `1 / (n + 1)`, see `C143_level_refuted`.
  - `C143_level_refuted`: as stated: with independent draws from any distribution without atoms and any number of simulations, a p-value of 0 is reported for a correct model with probability `1 / (n + 1)`, so every test at a level below that rejects too often.

**C144. Whole-number counts are grouped exactly in float64.** `Grouping/Float` models the loops once more, with every result rounded by an arbitrary round-to-nearest function and sums evaluated along an arbitrary binary tree whose leaves are the numbers given. `Rep` is the set of finite binary64 numbers. Whole numbers up to 2^53 are in the set, so induction over the tree shows that every partial sum is exact; the float loops then equal the integer loops of C01-C07 and the real-number model of C12. `C144_limit`: 2^53+1 is not in the set. A legal implementation exists (`leftImpl_legal`). Theorems in `Verif/Grouping/FloatErrorProps.lean`, `Verif/Grouping/FloatProps.lean`.

**C145. Grouped float64 counts carry a bounded rounding error.** Relative error of one rounded addition (2^-53, including subnormal numbers, where additions are exact) by exhibiting a number of the format that is close enough; induction over the tree of additions gives (1 ± 2^-53)^depth, and depth is less than the number of channels; the powers are bounded linearly. Theorems in `Verif/Grouping/FloatErrorProps.lean`.

**C146. Profile backgrounds stay non-negative and rates positive in float64.** `Infer/FloatStat` repeats the two formulas with every operation rounded. Core lemma: in binary floating point the rounded square root of a number not below the rounded square of c is not below |c| (`sqrt_square`, by the spacing of binary64 numbers), so c + sqrt(c^2 + t) is never negative; the ranges rule out overflow and underflow. True parts: positive source-region rate, non-negative background when background counts were observed or nothing was observed. Refuted with witnesses valid in every round-to-nearest arithmetic: without background counts the rate can be -2^-50 (numpy then refuses to simulate), and with one background count it can be exactly zero for a very bright source (log-likelihood minus infinity). Theorems in `Verif/Infer/FloatStatProps.lean`.
  - `C146_negative_refuted`: A background rate below zero is reached, in every round-to-nearest arithmetic: no counts in the background region, 7 counts in the source region, ratio 1/4 and the expected source counts `1.4000000000000001`. (Simulating data from such a rate raises an error in numpy.)
  - `C146_zero_refuted`: A background rate of zero is reached although a background count was observed (the logarithm in the statistic is then minus infinity), for a ratio of `2 ^ -10` and `2 ^ 49` expected source counts; the exact profile background is positive there.

**C147. Expected counts in float64: dense and sparse responses agree to rounding.** `Infer/FloatFold`: an entry of the product matrix times spectrum is computed by an arbitrary tree of rounded (or fused) products and rounded additions over the stored entries, then scaled and clipped with rounding. Proof by induction over the tree with a mixed relative/absolute error (the absolute part covers underflow), then through the two scalings and the clip; the sparse claim follows from the triangle inequality. Theorems in `Verif/Infer/FloatFoldProps.lean`.

**C148. Components evaluate their documented formulas.** The formulas of the class documentation are written down once as the specification (`doc`), next to the catalogue of components of C133, and every class is compared with its own formula, bin by bin. True for all but: Band functions with nearly equal indices, black bodies far from kT, `PLAbs` with index 1. Refuted at the defaults for `BrokenPL` (a factor 1/Eb) and `SmoothlyBrokenPL` (the factor 4^rho Eb^alpha1), both of which are proved to be the only differences away from the break. Theorems in `Verif/Models/DocProps.lean`.
  - `C148_rule_partial`: With parameters inside the declared bounds, every bin of a numerically integrated component holds the trapezoidal rule, or Simpson's, for the documented formula. `_partial`: not where the code puts something else in the place of the formula (`Covered`: Band functions with nearly equal indices, black bodies far from their temperature), where the formula is no number (`Regular`), and not for `SmoothlyBrokenPL` (`C148_refuted`).
  - `C148_exact_partial`: With parameters inside the declared bounds, every bin of an analytically integrated component is the exact integral (the exact mean, for a multiplicative component) of the documented formula over the bin. `_partial`: not for the index 1 of `PLAbs` (`Regular`), and not for `BrokenPL` (`C148_refuted`).
  - `C148_refuted`: As created, with all parameters at their defaults, `BrokenPL` holds a fifth of the documented photons in every bin below its break and `SmoothlyBrokenPL` at least twenty times the documented ones in every bin; a Band function with equal indices, which the bounds allow, is not the documented power law.

**C149. The C-statistic in float64: error bound from response to total, dense and sparse alike.** `Infer/FloatPoisson`: `BetterPoisson.log_prob` (both branches) with every operation rounded and an assumed accuracy of the logarithm, composed with the folding of C147, the sum over channels in an arbitrary order and the factor -2. Proof by a step lemma (each rounding adds one unit relative to the size of the terms), a Lipschitz bound for the log likelihood in the expected counts, and the error of a sum of non-positive terms. Theorems in `Verif/Infer/FloatPoissonProps.lean`.

**C150. Power law bins in float64.** `Models/FloatPower`: `_powerlaw_integral` for one bin with every operation rounded and assumed accuracies of the power and the logarithm; the exact value is the integral of E^-alpha. Proof: the rounded exponent is absorbed in the index (backward error), each further rounding adds one unit relative to the two edge terms, and the cancellation is bounded by exp t >= 1 + t; monotonicity of rounding gives the sign. The claim near index one fails: counterexample for every implementation with correct rounding. Theorems in `Verif/Models/FloatPowerProps.lean`.
  - `C150_error_partial`: For an index different from one, the computed photons of a bin are those of a power law whose index differs from the one asked for by rounding only, up to a relative error of `2 ^ -47` times `1 + 2 / (|1 - index| ln (b / a))`. Missing for the full property: the second factor is not bounded, it grows without limit as the index approaches one (see `C150_refuted`).
  - `C150_refuted`: For an index just above one a power law has no photons at all between 0.9 and 1.1 keV: every bin there is computed as zero, with a correctly rounded power and logarithm, although it holds more than half its width in photons. (A power law normalised to its flux in such a band is then infinite times zero.)

**C151. Li-Ma significance in float64.** `Grouping/FloatLima`: `significance_lima` and `group_sig_lima` with every operation of the significance rounded, the square root of a negative number a NaN and comparisons with NaN false. Proof: relative errors of the arguments of the two logarithms, absolute error of their sum against the number of counts, then the square root; the sign because a product that is rounded down to the counts has a significance below the threshold (log x <= x - 1). Agreement of the two greedy loops on equal decisions. Without an excess the claim fails: the computed sum is negative for 1 and 5 counts at ratio 1/5, the significance is NaN, and the last group is not merged. Theorems in `Verif/Grouping/FloatLimaProps.lean`, `Verif/Grouping/FloatRatioProps.lean`.
  - `C151_error_partial`: A significance whose square is at least `2 ^ -40` times the number of counts is computed: with the right sign, and its square with an error of at most `2 ^ -40` times the number of counts. Missing: the smaller significances, where the code can give NaN; see `C151_refuted`.
  - `C151_refuted`: One count, with five counts in a background of five times the exposure, has significance zero. The code gives NaN for it, whatever the last bit of the logarithm.
  - `C151_grouping_refuted`: Two channels with 20 and 1 counts, 5 counts of background in each and five times the exposure, grouped to a significance of three: the last channel is below it and joins the first, which is a success. The code leaves it alone, because its significance is NaN, which is not below three, and reports failure.

**C152. Chi-square and P-statistic in float64.** `Infer/FloatChi`: `BetterNormal.log_prob` and the expected counts with a known background, every result rounded, then the sum over the channels in any order (as in C149). Proof: the error of one channel against the size of its terms, from the relative error of the expected counts (C147 and a lemma for the sum with the background), then a lemma that adds up the channels. Theorems in `Verif/Infer/FloatChiProps.lean`.

**C153. W-statistic in float64.** `Infer/FloatW`: the two Poisson terms of `wstat` at the computed profile background (`FloatStat`), every result rounded, then the sum over the channels in any order. Proof: relative errors through the quadratic (its discriminant, the root, the cancelling numerator against a lower bound of the root), separately for channels without counts in one region, where a comparison of computed numbers may choose the other branch than exact arithmetic does (the two differ by as little); then C149 for each term and the lemma that adds up the channels. The hypothesis that the loss of digits is bounded is needed: C146 has a channel where all are lost. Theorems in `Verif/Infer/FloatWStatProps.lean`.

**C154. Significance over a Gaussian background: zero uncertainties and rounding.** `Grouping/FloatGv`: `significance_gv` with every result rounded and with NaN and infinities as values, and the loop of `group_sig_gv` with the comparisons of NumPy (false for NaN). Proof: without rounding and with positive uncertainties no NaN and no infinity arises and both functions are the ones of C05 and C11, by the properties of the profile background (C11) and induction on the loop; an uncertainty of zero is 0/0. With rounding the property is refuted by three inputs, followed operation by operation: the radicand of the profile background is negative, the sum of the terms is negative, the profile background is rounded to zero. `Grouping/FloatGvErrorProps`: where the variance is at most half of the background the error of every operation is carried, relative to the counts, through radicand, root, profile background and the two terms; a lost sign would need an excess below the rounding of the background, whose radicand is too small (C11 profile); so the significance is accurate, and the grouping is the exact one unless a significance is within one millionth of the threshold. Theorems in `Verif/Grouping/FloatGvErrorProps.lean`, `Verif/Grouping/FloatGvProps.lean`.
  - `C154_error_partial`: Where the variance of the scaled background is at most half of it (and not `2 ^ 40` times smaller), a significance whose square is at least `2 ^ -40` times the number of expected and observed counts is computed: finite, with the right sign, and its square with an error of at most `2 ^ -40` times that number; the uncertainty `s'` given to the code may differ from `s` in its last place. Missing: the smaller significances, where the code can give NaN, and the wider backgrounds, where the profile background is lost; see `C154_refuted` and `C154_infinite_refuted`.
  - `C154_zero_refuted`: Without rounding: an uncertainty of zero, which is accepted, gives NaN over every background that is not negative, whatever the counts, and an infinite significance over every negative one.
  - `C154_grouping_refuted`: Without rounding: two channels of a thousand counts each, over a background of zero with an uncertainty of zero, are not two groups but one, and the grouping reports failure.
  - `C154_refuted`: Three counts over a background of three, with an uncertainty of 3.8, have significance zero. The code gives NaN for it, whatever the last bit of the logarithm.
  - `C154_deficit_refuted`: No counts over a background of 43 counts with the uncertainty of counts, its square root, is a deficit of more than six standard deviations. The code gives NaN for it.
  - `C154_infinite_refuted`: One count over a background of zero with an uncertainty of 3 * 2^27 has a significance between zero and 2^-28. The code gives infinity, which reaches every threshold.
  - `C154_equality_refuted`: One count over a background of one count has significance zero, and one count over a background of two has a negative one; with an uncertainty of 3 * 2^27 the code gives plus infinity for the first, which reaches every threshold, and minus infinity for the second.
  - `C154_last_refuted`: Without rounding: the first of two channels reaches the threshold, the last one has an uncertainty of zero. Its significance is undefined, so it is not joined to the group before, as a last channel below the threshold is, but stays a group of its own that fails the final test.

**C155. PG-statistic in float64.** `Infer/FloatPg`: the Poisson and the Gaussian term of `pgstat` at the computed profile background (`FloatStat`), every result rounded, then the sum over the channels in any order. Proof: one lemma carries an absolute error relative to a scale through an operation; with it the errors of the linear and constant coefficient, of the discriminant and of the root, relative to the discriminant with all terms taken positive over its root; where the computed signs select another branch, the exact root is itself as small as the error; then C149 for the Poisson term, a Gaussian term that allows a background of zero, and the lemma that adds up the channels. Theorems in `Verif/Infer/FloatPgProps.lean`.

**C156. Grouping by plain significance in float64.** group_sig_normal with every addition, square, root, product and difference rounded, the order of the additions of np.add.reduceat arbitrary. Proved: counts of either sign summed in any order have an error of at most n units of 2^-52 of the sum of their absolute values, variances a relative error of (n+1) units, the limit sig*sqrt(variance) (n+3) units; hence if no interval of channels is that close to the threshold, groups and success are those of exact arithmetic. Refuted at the threshold: 1, 8 and 9 counts with errors equal to the square roots of the counts and a significance of 3, and an example in which a group that does not reach the threshold is formed. Theorems in `Verif/Grouping/FloatNormalProps.lean`.
  - `C156_grouping_partial`: If no interval of channels has a significance within rounding of the threshold, then the grouping computed in float64, in whatever order NumPy adds, and the reported success are those of exact arithmetic (so C05 says what they are). The counts are any numbers of the format up to `2 ^ 900`, the errors are zero or between `2 ^ -300` and `2 ^ 300`, the threshold is between `2 ^ -30` and `2 ^ 30`. What is missing: intervals at the threshold, see the counterexamples below.
  - `C156_poisson_refuted`: Channels with 1, 8 and 9 counts whose errors are the square roots of the counts, grouped to a significance of 3 (that is, 9 counts): exactly, the first two channels have a significance of 3 and are a group, and so is the third. In float64 the computed variance of the first two is `9 + 2 ^ -49`, so they are not, and all three channels end up in one group.
  - `C156_grouping_refuted`: Three channels: exactly, the first two together are less significant than one standard deviation and all three are one group; in float64 the first two are a group of their own.

**C157. Sums over intervals of channels in float64.** _prefix_sum, _interval_sum, _scale_from_interval and _interval_back_ratio with every result rounded. Proved: whole counts are added up exactly, an interval of zeros has sum zero, with unit scale factors the ratio is that of the exposures rounded once, and in general the error is at most (3 + number of channels) units of 2^-52 of everything up to the end of the interval. Refuted relative to the interval: a channel with a background of 1 ± 1 after one with an uncertainty of 3*2^26 gets variance zero and a NaN significance. Theorems in `Verif/Grouping/FloatPrefixProps.lean`, `Verif/Grouping/FloatRatioProps.lean`, `Verif/Grouping/FloatScaleProps.lean`.
  - `C157_interval_error_partial`: The sum over an interval of channels, the difference of two computed prefix sums, has an error of at most a few units of `2 ^ -52` (three plus the number of channels in the interval) of the sum of the absolute values of all channels *up to the end of the interval*. What is missing: an error relative to the channels in the interval, see the counterexample below.
  - `C157_refuted`: Two channels, the background of the second is 1 ± 1, that of the first has an uncertainty of 3 * 2 ^ 26. A hundred counts in the second channel have a significance above 10. The variance of the second channel alone, computed as a difference of prefix sums, is zero, and the significance is NaN.
  - `C157_scale_partial`: An interval of channels with counts, whole numbers up to 2^53 in all: the scale factor of the interval (the mean weighted with the counts) is computed with a relative error of at most 2^-52 plus twice that of the sum of `counts / scale` over the interval, which C157_interval_error bounds by a few units of 2^-52 of the same sum up to the end of the interval. What is missing: intervals with few of the counts, for which this error is larger than a quarter, see the counterexample of C157.
  - `C157_gv_partial`: The counts, background and error the code uses for an interval of channels when it groups by the significance over a Gaussian background: the counts, whole numbers, are those of the interval; the background is that of the interval up to a few units of `2 ^ -52` of the backgrounds up to the end of the interval; and the error is the rounded square root of the variance of the interval up to a few units of `2 ^ -52` of the variances up to the end of the interval. What is missing: errors relative to the interval, see the counterexample of C157.

**C158. Optimal grouping with a minimum plain significance in float64.** group_optsig_normal with every result rounded, sums in any order. Proved: if no interval of channels and no bin extended beyond its optimal width is within rounding of the threshold (n + 4 units of 2^-52 of counts plus limit), the groups and the success are those of the exact model of C06. Refuted at the threshold: three channels are one group in exact arithmetic but two groups in float64, the first of them below the threshold. Theorems in `Verif/Grouping/FloatOptsigProps.lean`.
  - `C158_grouping_partial`: If no interval of channels, and no bin extended beyond its optimal width, has a significance within rounding of the threshold, then the optimal grouping with a minimum significance computed in float64, in whatever order NumPy adds, and the reported success are those of exact arithmetic (so C06 says what they are). The counts are any numbers of the format up to `2 ^ 900`, the errors are zero or between `2 ^ -300` and `2 ^ 300`, the threshold is between `2 ^ -30` and `2 ^ 30`. What is missing: bins at the threshold, see the counterexample below.
  - `C158_grouping_refuted`: Three channels, the optimal width at the first is two channels: exactly, the first two together are less significant than one standard deviation, the bin is extended and all three are one group; in float64 the first two are a group of their own.

**C159. Optimal grouping with a minimum Li-Ma or Gaussian-background significance in float64.** The two loops of C06 run on the rounded significances of C151 and C154. Proved: if the threshold is above one and no interval is within 1e-6 of it (and, for a Gaussian background, the background is not too wide), groups and success are the exact ones; NaN counts as too low here, so empty channels do no harm. Refuted for wide Gaussian backgrounds: channels of significance below 2^-28 are accepted at a threshold of three. Theorems in `Verif/Grouping/FloatOptSignifProps.lean`, `Verif/Grouping/FloatRatioProps.lean`.
  - `C159_lima_partial`: If the wanted significance is above one and no interval of channels has a significance within one millionth of it, then the optimal grouping by Li-Ma significance in double precision, for at most a million counts, is the exact one, and so is the reported success (C06 says what they are). Unlike in C151, channels with a significance of zero do not matter: this loop treats a NaN as too low. What is missing: intervals within one millionth of the threshold.
  - `C159_gv_partial`: If the wanted significance is above one, no interval of channels has a significance within one millionth of it, and the variance of the scaled background of every interval is at most half of it, then the optimal grouping by significance over a Gaussian background in double precision is the exact one, and so is the reported success. What is missing: intervals within one millionth of the threshold, and wider backgrounds, see the counterexample below.
  - `C159_gv_refuted`: Two channels with one count each over a background of zero with an uncertainty of 3 * 2^27, at a threshold of three: in double precision every channel is a group and success is reported; the significance of each is at most 2^-28, and exactly the two channels are one group.
  - `C159_lima_computed_partial`: The same with the ratio of every interval as the code computes it, if that has a relative error of at most `5e-14` (C157 says when): if the wanted significance is above one and no interval of channels has a significance within two millionths of it, the optimal grouping is the exact one. What is missing: intervals within two millionths of the threshold.
  - `C159_lima_unit_partial`: Without area and background scale factors, and with exposures whose ratio is between `2 ^ -30` and `2 ^ 30`, the ratio needs no further condition: at most a million counts, a wanted significance above one, and no interval of channels within two millionths of it, and the optimal grouping with the ratios as the code computes them is the exact one. What is missing: intervals within two millionths of the threshold.

**C160. Nothing that is given about a spectrum is changed without a warning.** SpectrumData.__init__ and Spectrum.__init__ with the list of warnings issued. Proved: the values are those of C21/C58 whatever is switched off; scales and grouping differ from the given ones iff warned; the remaining warnings characterised, none repeated. Refuted: Poisson counts of 10^9 + 1/2 pass without a warning (tolerance relative to the counts); zero statistical errors are warned of although the systematic error makes the total positive; a SYS_ERR keyword is dropped silently. Theorems in `Verif/Data/SpecWarnProps.lean`.
  - `C160_integer_partial`: The user is warned, unless the warning is switched off, exactly if the counts of a Poisson spectrum are farther from a whole number than 10^-8 of themselves. What is missing: counts that are closer, see the counterexample below.
  - `C160_zero_partial`: For a spectrum with Gaussian errors and the warning switched on: without the warning all stored errors are positive, and the warning means that a given error is zero. What is missing: the stored error may still be positive, see the counterexample below.
  - `C160_integer_refuted`: A Poisson spectrum with 10^9 + 1/2 counts is accepted without any warning.
  - `C160_zero_refuted`: The user is warned about zero errors although the only error of the spectrum is one.
  - `C160_keyword_refuted`: A systematic error given as a keyword of the header is ignored without a warning, whatever its value and the kind of spectrum.

**C161. Replacing strings in nested values.** replace_string over an inductive type of values, str.replace as a left-to-right scan. Proved: with one key the string is cut into key-free pieces which are joined with the replacement; distinct one-character keys that occur in no replacement are replaced all at once; lists are mapped; dictionaries whose replaced keys differ keep their entries, and whatever the keys become, each replaced key is there once with the last value; values without keys are returned as they are. Refuted: replacements are made one after the other (a to b, b to c turns "ab" into "cc"); dictionary keys that become equal lose a value. Theorems in `Verif/Util/ReplaceStrProps.lean`.
  - `C161_text_partial`: If the keys are different characters that occur in no replacement, then every character is replaced once, as if all replacements were made at the same time. What is missing: replacements that contain keys, see the counterexample below, and longer keys.
  - `C161_text_refuted`: The replacements are made one after the other: with a to b and b to c, the string "ab" becomes "cc" instead of "bc".
  - `C161_dict_partial`: If the replaced keys of a dictionary are different, it keeps its entries in their order, with keys and values replaced. What is missing: keys that become equal, see the counterexample below.
  - `C161_dict_refuted`: Replacing a by b in a dictionary with the keys "a" and "b" gives one entry: the value of "a" is lost.

**C162. Grouping with a minimum significance, everything in float64.** C151, C154, C157 and C159 put together: the four functions with every number computed in float64 (rounding to nearest, any order of additions in reduceat, any accurate logarithm) return the flags and success of the exact model, if no interval is within 2e-6 (Li-Ma) or 1e-6 + 1.25e9 δ (Gaussian background, δ the relative error of ratios and sums) of the threshold. Refuted for wide Gaussian backgrounds, as C159. Theorems in `Verif/Grouping/FloatSignifProps.lean`.
  - `C162_optsig_lima_partial`: At most a million counts, ratios computed with a relative error of at most `5e-14` (C157 says when), a wanted significance above one, and no interval of channels with a significance within two millionths of it: the optimal grouping, everything computed in double precision, is the exact one, with the same report of success. What is missing: intervals within two millionths of the threshold.
  - `C162_sig_lima_partial`: The same for the grouping from low to high channels, if moreover no interval that ends at the last channel has a significance below two thousandths in size.
  - `C162_optsig_gv_partial`: No interval of channels has only a tiny share of the background, or of its variance, up to its end; the ratios are computed with a relative error of at most `δ ≤ 2e-13` (C157 says when); every interval is clear; the wanted significance is above one, and no interval has a significance within `1e-6 + 1.25e9 δ` of it: the optimal grouping, everything computed in double precision, is the exact one, with the same report of success. What is missing: intervals close to the threshold, and wider backgrounds, see the counterexample of C159.
  - `C162_sig_gv_partial`: The same for the grouping from low to high channels, if moreover no interval that ends at the last channel has a significance below three hundredths in size.
  - `C162_gv_refuted`: Two channels with one count each over a background of zero with an uncertainty of `3 * 2 ^ 27`, at a threshold of three, everything computed in double precision: every channel is a group and success is reported, while the significance of each is at most `2 ^ -28` and exactly the two channels are one group.
  - `C162_optsig_lima_unit_partial`: With all scale factors one, nothing has to be assumed about computed numbers: at most a million counts, a wanted significance above one, and no interval of channels with a significance within two millionths of it, for the ratio of the exposures; then the optimal grouping, everything computed in double precision, is the exact one, with the same report of success. What is missing: intervals within two millionths of the threshold.
  - `C162_sig_lima_unit_partial`: The same for the grouping from low to high channels, if moreover no interval that ends at the last channel has a significance below two thousandths in size.

## Trusted base

* Lean's kernel.  Axioms: every property theorem depends on a subset of `propext`, `Classical.choice`, `Quot.sound` (`AXIOMS.md`).  No
  axioms are declared, no proof is left open, no compiled evaluation (`native_decide`, `bv_decide`) is used.
* That the definitions of the model say what the cited lines do.  They were written by reading the source; nothing was executed.
* That the definitions of Mathlib (real numbers, integrals, Gaussian measure) are what their names say.

## What is modelled

| Python | Lean |
|---|---|
| `data/grouping.py` (all) | `Grouping/*` |
| `data/base.py`: SpectrumData, ResponseData, ObservationData constructors, quality, ranges, grouping, `group`, response grouping, FWHM | `Data/Obs`, `Data/Construct`, `Data/Group`, `Data/Fwhm` |
| `data/ogip.py`: spectrum, response, ARF decoding, names, defaults | `Data/Ogip` |
| `infer/likelihood.py`, `infer/helper.py`: statistics, simulation, parameter conversions, batches | `Infer/Likelihood`, `Infer/Sim`, `Infer/Params`, `Infer/Batch`, `Infer/Covar` |
| `infer/fit.py`: inputs, default statistics, names, maximum likelihood drivers, sampler drivers | `Infer/Fit`, `Infer/MaxLike`, `Infer/Kernel`, `Infer/Ensemble`, `Infer/NestedPrior`, `Util/Namespace` |
| `infer/results.py`: intervals, profile intervals, fluxes, bootstrap, predictive checks, information criteria, PSIS tables, stored posteriors | `Infer/Level`, `Infer/Credible`, `Infer/Profile`, `Infer/Intensity`, `Infer/Resample`, `Infer/IData`, `Infer/LooPit` |
| `infer/samplers/*` | `Infer/Ensemble`, `Infer/NestedPrior`, `Infer/Kernel` |
| `models/parameter.py` | `Models/Param`, `Models/Label`, `Models/Tracker`, `Models/Info` |
| `models/model.py`: algebra, compilation, evaluation, fluxes, simulation, settings | `Models/Algebra`, `Models/Info`, `Models/Interval`, `Models/Settings`, `Infer/SimObs` |
| `models/add.py`, `mul.py`, `conv.py`: every component | `Models/Spectra`, `Models/Mul` |
| `models/xs.py`: declarations, calling conventions, extended grids | `Models/Xspec` |
| `plot/residuals.py`, `plot/data.py`, `plot/scale.py`, `plot/misc.py`, `plot/util.py` | `Plot/*`, `Infer/LooPit` |
| `plot/plotter.py`: requests, panels, settings, colours and markers, what each curve and band shows, diagnostics (not the drawing itself) | `Plot/Request`, `Plot/Settings`, `Plot/Draw`, `Plot/Bands`, `Plot/Diag`, `Plot/Cache` |
| `data/base.py`, `data/ogip.py`: spectrum, effective area and response plots (what is drawn where) | `Data/PlotSpec`, `Plot/RespPlot` |
| `util/*`: configuration, progress bars, finite differences, quadrature wrappers, unique names, unit labels | `Util/*`, `Models/Interval` |

## What is not modelled

Rounding and overflow except where stated (counts, C144 and C145; profile backgrounds, C146; expected counts, C147; the C-statistic, C149; chi-square and P-statistic, C152; the W-statistic, C153; the PG-statistic, C155; power law bins, C150; the Li-Ma significance, C151; the significance over a Gaussian background, C154; the plain significance, C156; sums over intervals of channels, C157; the optimal groupings by significance, C158 and C159); JAX tracing and compilation; the numerical algorithms of Minuit, optimistix, NUTS, the ensemble moves
(but their directions, C117) and the nested samplers; FITS input and output below the level of columns and keywords; matplotlib's drawing; XSPEC itself;
the layout of tables (`__repr__`, `_repr_html_`) and warnings other than those of spectra (C160); `util/bslogu.py` (entirely commented out); `infer/lrt.py` (a stub); multivariate parameters.

## Further observations about the code

Found while modelling, not all of them stated as theorems.

* `significance_lima(1, 5, 0.2)` is NaN in float64 (the exact value is 0): the log likelihood ratio of a group without an excess is a rounding error of either sign, and a
  negative one has no square root.  `NaN < sig` is false, so `group_sig_lima` does not merge such a last group (C151).
* Background uncertainties of zero are accepted with a warning. The significance over such a background is 0/0 = NaN, however many counts there are, so that grouping by it closes no group (C154).
* With positive uncertainties `significance_gv` can still be NaN: for no counts over 43 ± √43 (a deficit of more than six standard deviations) and for an excess of zero, 3 counts over 3 ± 3.8; and it is infinite where the uncertainty squared is more than 2^53 times the counts (C154), plus infinity even where the counts equal the background and the significance is zero, minus infinity where they are fewer (C154_equality_refuted). A last channel of undefined significance is not joined to the group before it but fails the grouping (C154_last_refuted).
* `bsig` with a scale of 3 on Poisson background counts (errors √n) asks for 9 counts per group. In float64 1 + 8 counts do not reach it, because the square of the rounded √8 is above 8, and the group goes on (C156).
* The groupings by significance take sums over intervals as differences of running totals, so a channel with an uncertainty above 10^8 times that of a later one erases the variance of the later one, whose significance becomes NaN (C157).
* A power law whose index differs from one by a unit in the last place has no photons between 0.9 and 1.1 keV (`_powerlaw_integral`, C150); an optimizer that approaches index one loses
  digits in proportion.
* Dead code: the duplicate-id check of `Fit` (fit.py:398-406), the missing-ARF warning, `tree_depth` of the NUTS wrapper, the block `if j > imax` of the optimal grouping loops,
  `Response._drop_zeros`, `wstat_errors`, `model_info.fixed` for composites (holds NaN and is never read).
* `LinLogScale(subs=...)` has no effect on the position of the minor ticks (scale.py:399-419).
* `erange=[1, 2, 3, 4]` is accepted as one range of four numbers, of which only the first two are used.
* When a file has both `COUNTS` and `RATE`, `STAT_ERR` is multiplied by the exposure although the counts are used.
* A header background cannot be switched off by an argument.
* `simulate_from_data` does not carry over the `net` setting; the energy range of simulated data is the whole range of channels.
* `combine_residuals` compares `dof == 1.0`, which is ambiguous (raises) for arrays of more than one element.
* Posterior samples of at most 10000 draws are not trimmed to a multiple of the number of devices, unlike bootstrap samples.
* Misspelt parameter names in `flux(params=...)` are ignored (C111_unknown).
* `Edge` and `GAbs` declare a lower bound of zero for a quantity they divide by.
* The unit of a parameter shared by two component slots is that of the last component.
* The label of a parameter given by the user is overwritten when it is assigned to a slot.
* `PosteriorPlotData.residuals(mle=True)` returns nothing without a posterior predictive check (C98_mle_refuted).
* `ignore_nan` is documented to replace NaN by `-1e300`; it is replaced by minus infinity (and minus infinity by the lowest number), C117_nan.
* Linking a parameter to one with wider bounds can improve the best fit, because the bounds of the linked parameter are not applied (C132).
* Inside their declared bounds: a line of zero width, `PLAbs` with index 1 and an `Edge` at energy 0 give NaN (C133); `PLPhFlux` and `PLEnFlux` accept `emin` of zero or less.
* The flux of a fit accepts a grid of one point (the flux is then zero) and a reversed band (the flux is then negative) (C134).
* With log-uniform priors the most probable parameters are not the best-fit parameters (C135).
* Amplitudes are bounded below by 1e-10, so adding a component can make the best fit worse (C136).
* `set_grouping` keeps the array it is given and later writes into it; `data.grouping` is the spectrum's own array, so `set_grouping(None)` need not restore the flags of the file (C137).
* Without a background `net_counts` is the array `spec_counts` itself; sparse response matrices are kept without a copy (C137).
* The p-value of a bootstrap test is k/n, not (k+1)/(n+1): zero is reported with probability 1/(n+1) although the model is true (C143).
* Without background counts the profile background of the W-statistic can be negative by a rounding error; numpy refuses to simulate Poisson counts from it. With background
  counts it can be exactly zero for a very bright source, which makes the statistic infinite (C146).
* A negative count in an ignored channel switches off the averaging of the area scale of the net counts (C142).
* Broken power laws integrated with the trapezoid rule depend on the photon energy grid of the response (C141).
* With a `wstat` background the lower probability integral transform skips simulations that lie less than one count below the data (C57).
* A systematic error given as a header keyword is ignored without a warning (C160_keyword_refuted); the tolerance for Poisson counts that are not whole numbers is relative, so `1e9 + 0.5` counts are accepted
  silently (C160_integer_refuted); a zero statistical error is warned of although a systematic error makes the stored error positive (C160_zero_refuted).
* `replace_string` applies the keys of a mapping one after the other, so the replacement of one key can be replaced again by the next (C161).
* In float64 the sums over intervals are differences of prefix sums: behind a channel with a very bright background, faint channels are lost (C157_refuted). With a very uncertain background the
  significance is infinite in float64, so every channel becomes a group (C154_infinite_refuted, C159_gv_refuted, C162_gv_refuted).

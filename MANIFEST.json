{
 "claims": [
  {
   "property": "C01",
   "status": "proved",
   "theorems": [
    "Elisa.Grouping.C01_group_min",
    "Elisa.Grouping.C01_rejects"
   ],
   "note": ""
  },
  {
   "property": "C02",
   "status": "partial",
   "theorems": [
    "Elisa.Grouping.C02_group_const_partial",
    "Elisa.Grouping.C02_short_segment_refuted"
   ],
   "note": "The property as stated is false of the code; refuted: [C02_short_segment_refuted] whenever a non-empty segment has fewer than `c` channels, `group_const` reports success with flags that contain no group start at all, so the first channel of the segment is glued to whatever precedes the segment. Proved part: [C02_group_const_partial] (restricted to segments with at least `c` channels; the other case is refuted by `C02_short_segment_refuted`)."
  },
  {
   "property": "C03",
   "status": "proved",
   "theorems": [
    "Elisa.Grouping.C03_more_counts",
    "Elisa.Grouping.C03_width_total",
    "Elisa.Grouping.C03_optimal_width",
    "Elisa.Grouping.C03_group_within_resolution",
    "Elisa.Grouping.KB.C03_formula",
    "Elisa.Grouping.KB.C03_factor",
    "Elisa.Grouping.C03_group_opt"
   ],
   "note": ""
  },
  {
   "property": "C04",
   "status": "proved",
   "theorems": [
    "Elisa.Grouping.C04_group_optmin"
   ],
   "note": ""
  },
  {
   "property": "C05",
   "status": "proved",
   "theorems": [
    "Elisa.Grouping.C05_group_sig_lima",
    "Elisa.Grouping.C05_group_sig_gv",
    "Elisa.Grouping.C05_group_sig_normal",
    "Elisa.Grouping.C05_rejects"
   ],
   "note": ""
  },
  {
   "property": "C06",
   "status": "partial",
   "theorems": [
    "Elisa.Grouping.C06_group_optsig_lima",
    "Elisa.Grouping.C06_group_optsig_gv",
    "Elisa.Grouping.C06_group_optsig_normal_partial",
    "Elisa.Grouping.C06_optsig_normal_refuted"
   ],
   "note": "The property as stated is false of the code; refuted: [C06_optsig_normal_refuted] With `bint = [1,1,1,1]`, counts `[1, 2.5, 10, 10]`, errors `[2, 2, 1, 1]` and `sig = 1`, the first two channels already reach the threshold (`3.5 \u2265 \u221a8`) but the code extends the first group to three channels. Proved part: [C06_group_optsig_normal_partial] The grouping is a partition, success means that every group meets the threshold, every group but the last meets it. Missing with respect to C06: the group does not stop at the *first* such channel, because the stopping condition overestimates the error (`C06_optsig_normal_refuted`); it stops at the first channel where that stronger condition holds."
  },
  {
   "property": "C07",
   "status": "proved",
   "theorems": [
    "Elisa.Grouping.C07_regroup"
   ],
   "note": ""
  },
  {
   "property": "C08",
   "status": "proved",
   "theorems": [
    "Elisa.Grouping.C08_interval_ratio"
   ],
   "note": ""
  },
  {
   "property": "C09",
   "status": "proved",
   "theorems": [
    "Elisa.Grouping.C09_group_scale",
    "Elisa.Grouping.C09_rejects",
    "Elisa.Grouping.C09_scale_between",
    "Elisa.Grouping.C09_scaled_counts"
   ],
   "note": ""
  },
  {
   "property": "C10",
   "status": "proved",
   "theorems": [
    "Elisa.Grouping.C10_lima",
    "Elisa.Grouping.C10_lima_likelihood_ratio"
   ],
   "note": ""
  },
  {
   "property": "C11",
   "status": "proved",
   "theorems": [
    "Elisa.Grouping.C11_profile",
    "Elisa.Grouping.C11_gv"
   ],
   "note": ""
  },
  {
   "property": "C12",
   "status": "proved",
   "theorems": [
    "Elisa.Data.C12_conserves",
    "Elisa.Data.C12_noticed_total"
   ],
   "note": ""
  },
  {
   "property": "C13",
   "status": "partial",
   "theorems": [
    "Elisa.Data.C13_auto_net_refuted",
    "Elisa.Data.C13_bad_channels_ignored_partial",
    "Elisa.Data.C13_no_good_channel_excluded"
   ],
   "note": "The property as stated is false of the code; refuted: [C13_auto_net_refuted] Two legal observations that agree on all good channels but give different data. Proved part: [C13_bad_channels_ignored_partial] If two observations agree on their good channels and both declare the same NET setting (or have a background), every array handed to a fit is the same, whatever the bad channels contain. Missing: the NET setting left open (`net=None`), see `C13_auto_net_refuted`."
  },
  {
   "property": "C14",
   "status": "proved",
   "theorems": [
    "Elisa.Data.C14_noticed",
    "Elisa.Data.C14_restore_and_reject"
   ],
   "note": ""
  },
  {
   "property": "C15",
   "status": "proved",
   "theorems": [
    "Elisa.Data.C15_set_erange",
    "Elisa.Data.C15_history"
   ],
   "note": ""
  },
  {
   "property": "C16",
   "status": "proved",
   "theorems": [
    "Elisa.Data.C16_net_spectrum"
   ],
   "note": ""
  },
  {
   "property": "C17",
   "status": "partial",
   "theorems": [
    "Elisa.Data.C17_bad_channel_refuted",
    "Elisa.Data.C17_preserve_refuted",
    "Elisa.Data.C17_fractional_scale_refuted",
    "Elisa.Data.C17_varying_ratio_refuted",
    "Elisa.Data.C17_group_partial",
    "Elisa.Data.C17_arguments",
    "Elisa.Data.C17_min_partial"
   ],
   "note": "The property as stated is false of the code; refuted: [C17_bad_channel_refuted] Three channels with 1, 7, 1 counts, the middle one flagged bad, everything in range; `group('min', 2)` reports success, but the flags it writes are `[1, 1, -1]` and both noticed groups hold a single count. [C17_preserve_refuted] Flags `[1, -1, 1]` in the data, energy range `[2, 4]` that cuts through the first group, counts `[1, 1, 5]`: `group('min', 5, preserve_data_group=True)` reports success, but it dissolves the stored first group into single channels, and channel 1, alone in range, becomes a noticed group with one count. [C17_fractional_scale_refuted] Counts `[2, 1, 1]`, all good and in range: `group('min', 2.5)` reports success although a noticed group holds 2 < 2.5 counts. [C17_varying_ratio_refuted] `group('sig', 1)` adds the background-subtracted channels, `\u03a3 (c_i - r_i b_i) = 2` with error 1, and reports success; the fit sees `\u03a3 c_i - R \u03a3 b_i = 0` with error 1 for the same group. Proved part: [C17_group_partial] If the flags can be written back faithfully (`GroupTidy`) the call succeeds, the noticed groups of the result are exactly the groups the method returned for each energy range, the arrays handed to the fit are those of these groups, and success is reported exactly when every noticed group meets the requested scale. Missing with respect to C17: the hypothesis `GroupTidy` (`C17_bad_channel_refuted`, `C17_preserve_refuted`), for `const` at least one full group per range, and for the Gaussian significance a ratio that does not vary over the channels (`C17_varying_ratio_refuted`). [C17_min_partial] in terms of the counts handed to the fit."
  },
  {
   "property": "C18",
   "status": "proved",
   "theorems": [
    "Elisa.Data.C18_fold_commutes"
   ],
   "note": ""
  },
  {
   "property": "C19",
   "status": "partial",
   "theorems": [
    "Elisa.Data.C19_systematics_refuted",
    "Elisa.Data.C19_statistical_partial",
    "Elisa.Data.C19_keyword_refuted"
   ],
   "note": "The property as stated is false of the code; refuted: [C19_systematics_refuted] is violated: for every accepted non-Poisson spectrum whose systematic errors (if any) are a column, the error of a channel is the documented `\u221a(e\u00b2 + (f\u00b7counts)\u00b2)` exactly in the channels where the systematic error vanishes; in all other channels the systematic variance is counted twice. [C19_keyword_refuted] second violation: a systematic error given as header keyword (valid for all channels in the OGIP standard) is ignored whatever its value; likewise the keywords `QUALITY` and `GROUPING`. Proved part: [C19_statistical_partial] (partial: spectra without systematic errors). The error of an accepted non-Poisson spectrum is the statistical error of the counts."
  },
  {
   "property": "C20",
   "status": "proved",
   "theorems": [
    "Elisa.Data.C20_decode",
    "Elisa.Data.C20_encodable",
    "Elisa.Data.C20_truncated",
    "Elisa.Data.C20_arf",
    "Elisa.Data.C20_refused"
   ],
   "note": ""
  },
  {
   "property": "C21",
   "status": "proved",
   "theorems": [
    "Elisa.Data.C21_spectrum",
    "Elisa.Data.C21_observation",
    "Elisa.Data.C21_response",
    "Elisa.Data.C21_spectrum_scales"
   ],
   "note": ""
  },
  {
   "property": "C22",
   "status": "proved",
   "theorems": [
    "Elisa.Infer.C22_wstat_background",
    "Elisa.Infer.C22_wstat_domain"
   ],
   "note": ""
  },
  {
   "property": "C23",
   "status": "proved",
   "theorems": [
    "Elisa.Infer.C23_pgstat_background"
   ],
   "note": ""
  },
  {
   "property": "C24",
   "status": "proved",
   "theorems": [
    "Elisa.Infer.C24_poisson"
   ],
   "note": ""
  },
  {
   "property": "C25",
   "status": "proved",
   "theorems": [
    "Elisa.Infer.C25_channel_deviance",
    "Elisa.Infer.C25_total_deviance",
    "Elisa.Infer.C25_fit",
    "Elisa.Infer.C25_domain",
    "Elisa.Infer.C25_missing_background"
   ],
   "note": ""
  },
  {
   "property": "C26",
   "status": "partial",
   "theorems": [
    "Elisa.Models.C26_free_inside_partial",
    "Elisa.Models.C26_closed_bounds",
    "Elisa.Models.C26_restored",
    "Elisa.Models.C26_prior",
    "Elisa.Models.C26_support",
    "Elisa.Models.C26_bound_on_default_refuted",
    "Elisa.Models.C26_log_refuted",
    "Elisa.Models.C26_nan_refuted",
    "Elisa.Models.C26_infinite_bound_refuted",
    "Elisa.Models.C26_rounding_refuted"
   ],
   "note": "The property as stated is false of the code; refuted: [C26_bound_on_default_refuted] Moving the lower bound of a free parameter onto its default is accepted and leaves the default on the boundary. [C26_log_refuted] Switching to a logarithmic scale is accepted with a non-positive lower bound; the prior is then log-uniform from zero. [C26_nan_refuted] NaN passes every range check: assigning it to `default`, `min` or `max` of an existing parameter is accepted (only the constructor rejects a NaN default), whatever the state and the rounding, unless another check fails. [C26_infinite_bound_refuted] With an infinite upper bound the reset of a default lying on the lower bound produces a NaN default: the parameter is created with default NaN. [C26_rounding_refuted] In floating point the reset can be rounded away. Between `2^52` and `2^53` doubles are exactly the integers; for every rounding that rounds to a nearest double there, the free parameter `Uniform(2^52, 2^52 + 2)` with default `2^52` keeps its default on the bound. Proved part: [C26_free_inside_partial] A parameter created from ordinary numbers, and any history of assignments of ordinary numbers in which no bound of a free parameter is put exactly on the default and the scale is not switched to logarithmic below zero: the free parameter starts strictly inside its bounds and a logarithmic parameter has a positive lower bound. Missing from the full statement: the excluded assignments, see the refutations below."
  },
  {
   "property": "C27",
   "status": "partial",
   "theorems": [
    "Elisa.Models.C27_rejected_partial",
    "Elisa.Models.C27_fixed_fails_only_log",
    "Elisa.Models.C27_fixed_refuted"
   ],
   "note": "The property as stated is false of the code; refuted: [C27_fixed_refuted] `fixed = True` on a parameter that was switched to a logarithmic scale with a zero lower bound raises, but the parameter is now frozen. Proved part: [C27_rejected_partial] A rejected assignment of `default`, `min`, `max` or `log` leaves the whole parameter unchanged \u2014 any state, any value, any rounding. Missing: the `fixed` setter, see `C27_fixed_refuted`."
  },
  {
   "property": "C28",
   "status": "partial",
   "theorems": [
    "Elisa.Models.Track.C28_mirror_partial",
    "Elisa.Models.Track.C28_listed_once",
    "Elisa.Models.Track.C28_never_raises",
    "Elisa.Models.Track.C28_named_slot",
    "Elisa.Models.Track.C28_address_reuse_refuted"
   ],
   "note": "The property as stated is false of the code; refuted: [C28_address_reuse_refuted] When the address of a deleted component is reused, a surviving parameter still claims the slot of the new component: parameter 7 was used by a deleted component at address 1; the new component at address 1 holds parameter 8 in the same slot, yet both parameters are recorded as its owner, and both get the same name in a model made of that component. Proved part: [C28_mirror_partial] After any sequence of component creations, deletions and parameter assignments that never reuses the address of a deleted component: for every live component, the record of a parameter lists a slot exactly when that slot currently holds the parameter, without duplicates. Missing: histories in which Python reuses an address, see `C28_address_reuse_refuted`."
  },
  {
   "property": "C29",
   "status": "proved",
   "theorems": [
    "Elisa.Models.Label.C29_label_denotes_value",
    "Elisa.Models.Label.C29_text"
   ],
   "note": ""
  },
  {
   "property": "C30",
   "status": "proved",
   "theorems": [
    "Elisa.Models.Info.C30_slot_value",
    "Elisa.Models.Info.C30_mutation_independent"
   ],
   "note": ""
  },
  {
   "property": "C31",
   "status": "proved",
   "theorems": [
    "Elisa.Models.Algebra.C31_accepted",
    "Elisa.Models.Algebra.C31_value",
    "Elisa.Models.Algebra.C31_comps_once",
    "Elisa.Models.Algebra.C31_missing"
   ],
   "note": ""
  },
  {
   "property": "C32",
   "status": "partial",
   "theorems": [
    "Elisa.Models.Algebra.C32_parts_are_additive",
    "Elisa.Models.Algebra.C32_parts_sum_partial",
    "Elisa.Models.Algebra.C32_number_of_parts",
    "Elisa.Models.Algebra.C32_repeated_refuted",
    "Elisa.Models.Algebra.C32_flux_convolution_refuted"
   ],
   "note": "The property as stated is false of the code; refuted: [C32_repeated_refuted] For `a + a` the reported parts are a single entry with value `a`, whatever the value, because the dictionary of parts is keyed by the label. [C32_flux_convolution_refuted] For a flux-normalising convolution of a sum, each part is normalised to the full flux: the parts of `F(A + B)` add up to twice the flux of the model. Proved part: [C32_parts_sum_partial] Evaluating with `comps=True` gives one entry per additive part, and the entries add up to the total model in every energy bin \u2014 if the convolutions are additive and the parts have different labels. (Missing: repeated labels, see `C32_repeated_refuted`; flux-normalising convolutions, see `C32_flux_convolution_refuted`.)"
  },
  {
   "property": "C33",
   "status": "partial",
   "theorems": [
    "Elisa.Models.Info.C33_positional_keyword_partial",
    "Elisa.Models.Info.C33_mapping",
    "Elisa.Models.Info.C33_default",
    "Elisa.Models.Info.C33_shared_refuted",
    "Elisa.Models.Info.C33_order"
   ],
   "note": "The property as stated is false of the code; refuted: [C33_shared_refuted] If a free parameter feeds two slots, **every** positional evaluation raises, although the names listed in `params_name` are the right arguments: the length is checked against the distinct names while the values are zipped strictly with the repeated ids. Proved part: [C33_positional_keyword_partial] Without sharing and with distinct names: a sequence of values in the order of `params_name` and the mapping of those names to those values reach the model function as the same parameters. (Missing: models in which a free parameter feeds several slots, see `C33_shared_refuted`.)"
  },
  {
   "property": "C34",
   "status": "partial",
   "theorems": [
    "Elisa.Util.Names.C34_shape",
    "Elisa.Util.Names.C34_distinct_partial",
    "Elisa.Util.Names.C34_distinct_refuted",
    "Elisa.Util.Names.C34_fit_names_partial"
   ],
   "note": "The property as stated is false of the code; refuted: [C34_distinct_refuted] Generated names can coincide: a component class called `x_2` next to two components `x`; a parameter called `a'` next to two parameters `a`. Proved part: [C34_distinct_partial] The generated names are pairwise distinct if and only if no given name looks like a generated one. For all lists of names and the three suffix styles. The unconditional statement fails, see `C34_distinct_refuted`. [C34_fit_names_partial] Names of the components of a fit (`Name_2[data]`, \u2026) are pairwise distinct whatever the data set names, as long as component class names contain no `[` and none of them is another one followed by `_k` (`k \u2265 2`)."
  },
  {
   "property": "C35",
   "status": "proved",
   "theorems": [
    "Elisa.Models.Spectra.C35_partition",
    "Elisa.Models.Spectra.C35_flux",
    "Elisa.Models.Spectra.C35_adjacent_bands",
    "Elisa.Models.Spectra.C35_partition_lorentz"
   ],
   "note": ""
  },
  {
   "property": "C36",
   "status": "proved",
   "theorems": [
    "Elisa.Models.Spectra.C36_exact"
   ],
   "note": ""
  },
  {
   "property": "C37",
   "status": "partial",
   "theorems": [
    "Elisa.Models.Spectra.C37_up_to_scale_partial",
    "Elisa.Models.Spectra.C37_scale_refuted",
    "Elisa.Models.Spectra.C37_break_bin_refuted"
   ],
   "note": "The property as stated is false of the code; refuted: [C37_scale_refuted] The normalisation is off by the factor `1 / Eb` for every break energy other than 1 keV, already for the flat spectrum. [C37_break_bin_refuted] In the bin that contains the break the low-energy index is used throughout, even when `Eb = 1`. Proved part: [C37_up_to_scale_partial] What the code does deliver: on bins that do not contain the break, `Eb` times the bin value is the documented integral (so the documented bins when `Eb = 1`). (Missing: the factor `Eb`, and the bin containing the break, see the `_refuted` theorems.)"
  },
  {
   "property": "C38",
   "status": "proved",
   "theorems": [
    "Elisa.Models.Spectra.C38_photon",
    "Elisa.Models.Spectra.C38_photon_flux",
    "Elisa.Models.Spectra.C38_energy"
   ],
   "note": ""
  },
  {
   "property": "C39",
   "status": "partial",
   "theorems": [
    "Elisa.Models.Spectra.C39_documented_partial",
    "Elisa.Models.Spectra.C39_continuous_partial",
    "Elisa.Models.Spectra.C39_discontinuous_refuted",
    "Elisa.Models.Spectra.C39_bandEp_eq_band_partial",
    "Elisa.Models.Spectra.C39_bandEp_refuted",
    "Elisa.Models.Spectra.C39_bandEp_eq_band",
    "Elisa.Models.Spectra.C39_peak",
    "Elisa.Models.Spectra.C39_compt_peak"
   ],
   "note": "The property as stated is false of the code; refuted: [C39_discontinuous_refuted] Otherwise (`alpha - beta < 1/Ec`, for instance `beta` close to or above `alpha`, values the declared parameter ranges allow) the spectrum jumps at 1 keV, whatever the other parameters. [C39_bandEp_refuted] Otherwise the two components differ: the break of `BandEp` is not clipped. Proved part: [C39_documented_partial] Where the low- and high-energy indices are separated (`alpha - beta \u2265 1/Ec`), the code is the documented function at every positive energy. (Missing: the other documented parameter values, see `C39_discontinuous_refuted`.) [C39_continuous_partial] It is then continuous at every positive energy, in particular at the break. [C39_bandEp_eq_band_partial] `BandEp` is the Band function with `Ec = Ep / (2 + alpha)` when the indices are separated."
  },
  {
   "property": "C40",
   "status": "proved",
   "theorems": [
    "Elisa.Models.Spectra.C40_compose",
    "Elisa.Models.Spectra.C40_identity",
    "Elisa.Models.Spectra.C40_commute",
    "Elisa.Models.Spectra.C40_inverse",
    "Elisa.Models.Spectra.C40_velocity_compose",
    "Elisa.Models.Spectra.C40_spectrum",
    "Elisa.Models.Spectra.C40_factor",
    "Elisa.Models.Spectra.C40_photon_flux",
    "Elisa.Models.Spectra.C40_energy_flux"
   ],
   "note": ""
  },
  {
   "property": "C41",
   "status": "proved",
   "theorems": [
    "Elisa.Models.Spectra.C41_photon",
    "Elisa.Models.Spectra.C41_photon_reported",
    "Elisa.Models.Spectra.C41_energy_reported",
    "Elisa.Models.Spectra.C41_scale_invariant",
    "Elisa.Models.Spectra.C41_shape"
   ],
   "note": ""
  },
  {
   "property": "C42",
   "status": "proved",
   "theorems": [
    "Elisa.Models.Spectra.C42_trapz_grid_error",
    "Elisa.Models.Spectra.C42_trapz_linear",
    "Elisa.Models.Spectra.C42_simpson_cubic",
    "Elisa.Models.Spectra.C42_trapz_average",
    "Elisa.Models.Spectra.C42_simpson_average",
    "Elisa.Models.Spectra.C42_constant",
    "Elisa.Models.Spectra.C42_linear",
    "Elisa.Models.Spectra.C42_nonneg",
    "Elisa.Models.Spectra.C42_bounded",
    "Elisa.Models.Spectra.C42_trapz_error"
   ],
   "note": ""
  },
  {
   "property": "C43",
   "status": "proved",
   "theorems": [
    "Elisa.Infer.C43_check",
    "Elisa.Infer.C43_default",
    "Elisa.Infer.C43_incompatible",
    "Elisa.Infer.C43_accepted_usable",
    "Elisa.Infer.C43_refused"
   ],
   "note": ""
  },
  {
   "property": "C44",
   "status": "proved",
   "theorems": [
    "Elisa.Infer.C44_parse_input",
    "Elisa.Infer.C44_no_repeated_data",
    "Elisa.Infer.C44_stat_names"
   ],
   "note": ""
  },
  {
   "property": "C45",
   "status": "partial",
   "theorems": [
    "Elisa.Infer.C45_dof",
    "Elisa.Infer.C45_ic_partial",
    "Elisa.Infer.C45_aic_refuted",
    "Elisa.Infer.C45_aic_negative_refuted"
   ],
   "note": "The property as stated is false of the code; refuted: [C45_aic_refuted] A fit whose number of channels exceeds the number of free parameters by exactly one cannot produce a result: computing the AIC divides by zero. [C45_aic_negative_refuted] With fewer channels than parameters the \"correction\" is negative and the AIC is lower than the deviance plus twice the number of parameters. Proved part: [C45_ic_partial] With more than one degree of freedom the reported AIC is the deviance plus twice the number of parameters plus the non-negative small-sample correction `2k(k+1)/(n-k-1)`, and BIC is the deviance plus `k log n`."
  },
  {
   "property": "C46",
   "status": "proved",
   "theorems": [
    "Elisa.Infer.C46_parallel_batch",
    "Elisa.Infer.C46_row",
    "Elisa.Infer.C46_run_size",
    "Elisa.Infer.C46_boot",
    "Elisa.Infer.C46_boot_single",
    "Elisa.Infer.C46_ppc"
   ],
   "note": ""
  },
  {
   "property": "C47",
   "status": "partial",
   "theorems": [
    "Elisa.Util.C47_progress_partial",
    "Elisa.Util.C47_refuses",
    "Elisa.Util.C47_terminates",
    "Elisa.Util.C47_progress_refuted"
   ],
   "note": "The property as stated is false of the code; refuted: [C47_progress_refuted] is violated by the real `tqdm.update`, whose `self.n += k` reads and writes in two operations: with two devices and one evaluation each there is a schedule after which all threads have finished and the bar is closed at 1 of 2 evaluations. Proved part: [C47_progress_partial] (partial: for progress updates that are indivisible operations). For every positive number of evaluations and devices, every update rate, every schedule and every moment: the bar never exceeds the total; once it is closed it shows exactly the total and no thread has an update left; a state in which some thread has work left can always continue; and when all threads have finished, the bar is closed and shows the total. Missing from the full property: `bar.update` is not one indivisible operation, see `C47_progress_refuted`."
  },
  {
   "property": "C48",
   "status": "partial",
   "theorems": [
    "Elisa.Infer.C48_level",
    "Elisa.Infer.C48_level_twice_refuted",
    "Elisa.Infer.C48_quantile",
    "Elisa.Infer.C48_interval"
   ],
   "note": "The property as stated is false of the code; refuted: [C48_level_twice_refuted] is violated in floating point: if rounding sends numbers within `2\u207b\u2075\u2074` below 1 to 1 (as round to nearest does), then for all large numbers of standard deviations the first conversion gives exactly 1, which the second conversion in the bootstrap interval reads as \"one standard deviation\": the interval returned for such a `cl` is the 68% interval."
  },
  {
   "property": "C49",
   "status": "proved",
   "theorems": [
    "Elisa.Infer.C49_p_value",
    "Elisa.Infer.C49_no_samples"
   ],
   "note": ""
  },
  {
   "property": "C50",
   "status": "proved",
   "theorems": [
    "Elisa.Infer.C50_free_names",
    "Elisa.Infer.C50_array_roundtrip",
    "Elisa.Infer.C50_mapping_roundtrip"
   ],
   "note": ""
  },
  {
   "property": "C51",
   "status": "proved",
   "theorems": [
    "Elisa.Infer.C51_selection",
    "Elisa.Infer.C51_order_irrelevant"
   ],
   "note": ""
  },
  {
   "property": "C52",
   "status": "partial",
   "theorems": [
    "Elisa.Infer.C52_sampling_partial",
    "Elisa.Infer.C52_chi2_no_background",
    "Elisa.Infer.C52_chi2_refuted"
   ],
   "note": "The property as stated is false of the code; refuted: [C52_chi2_refuted] is violated by `chi2` with background: whenever the net error of a channel exceeds the error of the spectrum (any background with a positive error and ratio), the data are simulated from a narrower distribution than the one in the likelihood; the two densities differ for every data value other than the model value. Proved part: [C52_sampling_partial] (partial). For data a statistic can be used on \u2014 and, for `chi2`, when the error of the net counts is the error of the spectrum, i.e. without background \u2014 the sampling distribution of every channel is the one in the likelihood: the recorded log-likelihood of the data equals the logarithm of the density of the sampling distribution at the data with mean the model value, normalised to a perfect model. This holds for the \"on\" data and for the \"off\" data, which are simulated exactly when the statistic models them. Missing: `chi2` with background, see `C52_chi2_refuted`."
  },
  {
   "property": "C53",
   "status": "partial",
   "theorems": [
    "Elisa.Plot.C53_poisson",
    "Elisa.Plot.C53_pair",
    "Elisa.Plot.C53_pair_normal",
    "Elisa.Plot.C53_default_dof_refuted",
    "Elisa.Plot.C53_fit",
    "Elisa.Plot.C53_pearson_partial",
    "Elisa.Plot.C53_pearson_refuted"
   ],
   "note": "The property as stated is false of the code; refuted: [C53_default_dof_refuted] fails for the functions on pairs of data with their default degrees of freedom and a sign: whenever the fit is perfect (`d = 0`, and every chi-square distribution function vanishes at `0`), the residual is infinite. [C53_pearson_refuted] (Pearson residuals, refuted part). With `wstat`, a channel without off counts whose on counts do not exceed what the source alone explains has a profiled background of exactly zero, and its Pearson residual is `0 / 0`: it is undefined although data and model are perfectly sensible. Proved part: [C53_pearson_partial] (Pearson residuals; partial). For every statistic, usable dataset and model in the numerical range, the Pearson residual of every channel exists and is the textbook one; for `wstat` this needs off counts in every channel."
  },
  {
   "property": "C54",
   "status": "partial",
   "theorems": [
    "Elisa.Util.C54_get_parallel_number",
    "Elisa.Util.C54_set_cpu_cores_partial",
    "Elisa.Util.C54_set_cpu_cores_refuted",
    "Elisa.Util.C54_enable_x64_refuted"
   ],
   "note": "The property as stated is false of the code; refuted: [C54_set_cpu_cores_refuted] is violated by `set_cpu_cores` outside those conditions: on a single-core machine a request for two cores asks XLA for zero devices; a request for a negative number of cores is passed on unchecked; and a previous flag with an empty value stays, so that two device-count flags remain. [C54_enable_x64_refuted] related setting: `jax_enable_x64(False)` leaves double precision off only when the environment variable is unset or empty; with `JAX_ENABLE_X64=0` it switches double precision on. Proved part: [C54_set_cpu_cores_partial] device-count flag (partial): when the requested number is positive and the machine has enough cores (or at least two), and each word of the previous flags is either a complete device-count flag or does not contain its name, the new value of `XLA_FLAGS` consists of exactly one device-count flag with a positive count not above the number of cores, followed by all other previous flags in their order. Missing from the full property: see `C54_set_cpu_cores_refuted`."
  },
  {
   "property": "C55",
   "status": "proved",
   "theorems": [
    "Elisa.Models.Spectra.C55_exact",
    "Elisa.Models.Spectra.C55_normalised"
   ],
   "note": ""
  },
  {
   "property": "C56",
   "status": "partial",
   "theorems": [
    "Elisa.Infer.C56_net_centred_partial",
    "Elisa.Infer.C56_pstat_refuted"
   ],
   "note": "The property as stated is false of the code; refuted: [C56_pstat_refuted] is violated by `pstat`: its known background is never subtracted, so the \"net\" spectrum exceeds the model by the background rate. Proved part: [C56_net_centred_partial] (partial: all statistics but `pstat`). For every dataset, model and statistic, the net spectrum computed from the expected counts of the \"on\" and \"off\" data is the folded model spectrum: simulated net spectra are centred on the model."
  },
  {
   "property": "C57",
   "status": "proved",
   "theorems": [
    "Elisa.Plot.C57_poisson",
    "Elisa.Plot.C57_gauss",
    "Elisa.Plot.C57_share",
    "Elisa.Plot.C57_wstat_lower_refuted",
    "Elisa.Plot.C57_pit",
    "Elisa.Plot.C57_limits",
    "Elisa.Plot.C57_function_flags_refuted"
   ],
   "note": "Proved as stated. Beyond the statement, shown false: [C57_wstat_lower_refuted] (refuted: data below the observed ones). For `wstat` the lower value is not the share of the simulations below the net counts: simulated net counts less than one count, or one background count, below the data are left out. [C57_function_flags_refuted] fails for the library functions `quantile_residuals_poisson_poisson` and `quantile_residuals_poisson_normal`: a PIT value of `0` is flagged as *lower* limit (and not as upper), although the reported value is an upper bound that is not attained."
  },
  {
   "property": "C58",
   "status": "proved",
   "theorems": [
    "Elisa.Data.C58_spectrum"
   ],
   "note": ""
  },
  {
   "property": "C59",
   "status": "proved",
   "theorems": [
    "Elisa.Data.C59_name"
   ],
   "note": ""
  },
  {
   "property": "C60",
   "status": "proved",
   "theorems": [
    "Elisa.Data.C60_photon_grid",
    "Elisa.Infer.C60_gap_refuted"
   ],
   "note": "Proved as stated. Beyond the statement, shown false: [C60_gap_refuted] only the lower edges and the last upper edge are kept, so the photons of the gap are counted in the bin below it (and with overlapping bins, part of a bin is lost). Here the file has the bins 1-2 and 3-4, but a flat model gets the bin 1-3."
  },
  {
   "property": "C61",
   "status": "proved",
   "theorems": [
    "Elisa.Models.Info.C61_mirror_from_history",
    "Elisa.Models.Info.C61_free_parameters",
    "Elisa.Models.Info.C61_setup",
    "Elisa.Models.Info.C61_named"
   ],
   "note": ""
  },
  {
   "property": "C62",
   "status": "proved",
   "theorems": [
    "Elisa.Models.Spectra.C62_energy_flux_bound",
    "Elisa.Models.Spectra.C62_powerlaw"
   ],
   "note": ""
  },
  {
   "property": "C63",
   "status": "proved",
   "theorems": [
    "Elisa.Models.Spectra.C63_luminosity",
    "Elisa.Models.Spectra.C63_eiso"
   ],
   "note": ""
  },
  {
   "property": "C64",
   "status": "partial",
   "theorems": [
    "Elisa.Models.Spectra.C64_sbpl",
    "Elisa.Models.Spectra.C64_sbpl_at_break",
    "Elisa.Models.Spectra.C64_sbpl_doc_refuted",
    "Elisa.Models.Spectra.C64_blackbody_exact",
    "Elisa.Models.Spectra.C64_blackbody_low",
    "Elisa.Models.Spectra.C64_blackbody_high",
    "Elisa.Models.Spectra.C64_sbpl_doc_factor"
   ],
   "note": "The property as stated is false of the code; refuted: [C64_sbpl_doc_refuted] The documented formula is a different one (reference energy 1 keV, factor 2 instead of 1/2)."
  },
  {
   "property": "C65",
   "status": "proved",
   "theorems": [
    "Elisa.Models.Interval.C65_average",
    "Elisa.Models.Interval.C65_documented",
    "Elisa.Models.Interval.C65_order",
    "Elisa.Models.Interval.C65_supplied_value_ignored",
    "Elisa.Models.Interval.C65_independent",
    "Elisa.Models.Interval.C65_orientation",
    "Elisa.Models.Interval.C65_additive",
    "Elisa.Models.Interval.C65_bounded",
    "Elisa.Models.Interval.C65_empty_interval_refuted",
    "Elisa.Models.Interval.C65_two_ends"
   ],
   "note": "Proved as stated. Beyond the statement, shown false: [C65_empty_interval_refuted] An interval of zero length is accepted, and the value is then not the value of the model (the quotient `0/0`, here 0)."
  },
  {
   "property": "C66",
   "status": "partial",
   "theorems": [
    "Elisa.Models.Spectra.C66_transmissions",
    "Elisa.Models.Spectra.C66_absorption_removes_photons",
    "Elisa.Models.Spectra.C66_expfac",
    "Elisa.Models.Spectra.C66_columns_add",
    "Elisa.Models.Spectra.C66_highecut_starts_at_one",
    "Elisa.Models.Spectra.C66_gaussian_line",
    "Elisa.Models.Spectra.C66_constant",
    "Elisa.Models.Spectra.C66_plabs_partial",
    "Elisa.Models.Spectra.C66_plabs_index_one_refuted",
    "Elisa.Models.Spectra.C66_cross_section_at_nodes",
    "Elisa.Models.Spectra.C66_cross_section_between"
   ],
   "note": "The property as stated is false of the code; refuted: [C66_plabs_index_one_refuted] For index 1, inside the declared range `[0, 5]`, every bin is NaN although the documented average is a positive number. Proved part: [C66_plabs_partial] Power law absorption gives exact bin averages for every index except 1. (Missing: index 1.)"
  },
  {
   "property": "C67",
   "status": "partial",
   "theorems": [
    "Elisa.Plot.C67_constructor",
    "Elisa.Plot.C67_transform",
    "Elisa.Plot.C67_shape",
    "Elisa.Plot.C67_get_scale",
    "Elisa.Plot.C67_get_scale_total",
    "Elisa.Plot.C67_decade_refuted",
    "Elisa.Plot.C67_view_split",
    "Elisa.Plot.C67_ticks",
    "Elisa.Plot.C67_threshold_tick_missing",
    "Elisa.Plot.C67_tick_space"
   ],
   "note": "The property as stated is false of the code; refuted: [C67_decade_refuted] The documentation of `LinLogScale` says that with `lin_scale == 1` the range `[0, lin_thresh]` takes the same space as one decade. It never does: it takes `1 / (1 - 1/base)` decades (10/9 of a decade for base ten)."
  },
  {
   "property": "C68",
   "status": "partial",
   "theorems": [
    "Elisa.Plot.C68_value",
    "Elisa.Plot.C68_bounds",
    "Elisa.Plot.C68_linear",
    "Elisa.Plot.C68_invariant",
    "Elisa.Plot.C68_default_points",
    "Elisa.Plot.C68_one_sigma_refuted"
   ],
   "note": "The property as stated is false of the code; refuted: [C68_one_sigma_refuted] The documentation says the default threshold keeps estimates up to about one sigma from the nearest datum (a weight of 0.683 at one sigma). At one sigma from an only datum the weight is `exp(-1/2) < 0.683` and the estimate is NaN."
  },
  {
   "property": "C69",
   "status": "proved",
   "theorems": [
    "Elisa.Plot.C69_scale_color",
    "Elisa.Plot.C69_identity",
    "Elisa.Plot.C69_monotone",
    "Elisa.Plot.C69_gradient",
    "Elisa.Plot.C69_rejected",
    "Elisa.Plot.C69_sign_accepted",
    "Elisa.Plot.C69_channel"
   ],
   "note": ""
  },
  {
   "property": "C70",
   "status": "partial",
   "theorems": [
    "Elisa.Util.C70_linear",
    "Elisa.Util.C70_exact",
    "Elisa.Util.C70_central_error",
    "Elisa.Util.C70_forward_error",
    "Elisa.Util.C70_methods",
    "Elisa.Util.C70_method_partial",
    "Elisa.Util.C70_method_refuted"
   ],
   "note": "The property as stated is false of the code; refuted: [C70_method_refuted] After the first evaluation the setter has no effect: whatever is set later, the method of the first evaluation stays in use, although the attribute reports the new one. Proved part: [C70_method_partial] (choice of method, part that holds). As long as the component was not evaluated before its method was last set, an evaluation uses the method set last."
  },
  {
   "property": "C71",
   "status": "partial",
   "theorems": [
    "Elisa.Infer.C71_prior",
    "Elisa.Infer.C71_log_uniform",
    "Elisa.Infer.C71_default_prior",
    "Elisa.Infer.C71_evidence_partial",
    "Elisa.Infer.C71_discrete_refuted",
    "Elisa.Infer.C71_ultranest_labels_refuted"
   ],
   "note": "The property as stated is false of the code; refuted: [C71_discrete_refuted] The cube is built with the parameter's own sample type, so the coordinate of an integer-valued parameter loses its fraction: a Bernoulli parameter with success probability one half is always 1 inside the cube, although the prior gives it probability one half. [C71_ultranest_labels_refuted] UltraNest's own report can attach a cube coordinate's name to another parameter's coordinate: its labels are in model order, the coordinates in alphabetical order. The returned samples are not affected. Proved part: [C71_evidence_partial] (all parameters, evidence). When every prior is float-valued, averaging the likelihood over the unit cube (what the nested sampler integrates) is averaging it over the joint prior: the evidence the samplers estimate is the evidence of the model, and the mapped cube points follow the prior."
  },
  {
   "property": "C72",
   "status": "partial",
   "theorems": [
    "Elisa.Infer.C72_draws",
    "Elisa.Infer.C72_listener",
    "Elisa.Infer.C72_listener_refuted",
    "Elisa.Infer.C72_start_method",
    "Elisa.Infer.C72_start_method_refuted",
    "Elisa.Infer.C72_resume",
    "Elisa.Infer.C72_seeds",
    "Elisa.Infer.C72_jitter_partial",
    "Elisa.Infer.C72_jitter_refuted",
    "Elisa.Infer.C72_names",
    "Elisa.Infer.Walk.C72_stuck_refuted"
   ],
   "note": "The property as stated is false of the code; refuted: [C72_listener_refuted] If fewer than `n` samplers send their last message (one raised an exception), the listener never ends, whatever arrives: the thread stays blocked on the queue. [C72_start_method_refuted] After a failed run the start method has become `spawn`. [C72_jitter_refuted] A coordinate whose initial value is zero (in the unconstrained space: a parameter whose default is the centre of its bounds) starts at zero for every walker whatever the jitter, and moves that combine walkers affinely \u2014 stretch and differential moves \u2014 keep it there for ever. [C72_stuck_refuted] If a parameter starts at zero (in the unconstrained space) in every walker \u2014 as it does when its initial value is zero, see `C72_jitter_refuted` \u2014 then it is still zero in every walker after any number of moves of zeus, whatever the likelihood, the random numbers and the tuning. Proved part: [C72_jitter_partial] (start positions, part that holds). With jitters in `[0.9, 1.1)` every walker starts within ten percent of the initial point, on the same side of zero, and two walkers start at different values of a coordinate exactly when their jitters differ \u2014 provided the initial coordinate is not zero."
  },
  {
   "property": "C73",
   "status": "partial",
   "theorems": [
    "Elisa.Infer.C73_profile_partial",
    "Elisa.Infer.C73_rtol_refuted",
    "Elisa.Infer.C73_zero_refuted",
    "Elisa.Infer.C73_rtol_argument",
    "Elisa.Infer.C73_negative_rtol_refuted",
    "Elisa.Infer.C73_rtol_search",
    "Elisa.Infer.C73_free",
    "Elisa.Infer.C73_decreasing_refuted"
   ],
   "note": "The property as stated is false of the code; refuted: [C73_rtol_refuted] violation of the documented tolerance: for the statistic `\u03b8\u00b2`, the function `\u03b8 + 10`, the default tolerance `1e-6` and one sigma (`\u0394 = 1`), all values inside the confidence region are at most `11`, but the computed set contains a value that exceeds `11` by more than four times the relative tolerance. [C73_zero_refuted] violation for a function that vanishes at the best fit: the start point of the search is not a number, whatever the tolerance, although the confidence region is an interval around zero. [C73_negative_rtol_refuted] violation of the argument check: every negative tolerance is accepted, and then the joint loss has no minimum: with any function that does not vanish everywhere it falls below every bound. [C73_decreasing_refuted] violation for parameters with a prior bounded from above only (e.g. a right-truncated normal prior of numpyro, whose support `(-\u221e, b)` is parametrised by `b - exp(x)`): the transformation decreases, so the interval is always reported upside down, with a positive \"lower\" and a negative \"upper\" error. Proved part: [C73_profile_partial] (partial: with the tolerance the code really has, and for functions that do not vanish at the best fit). For every fit statistic with best value `best = D mle`, every function and every tolerance `rtol > 0`: the search starts in the joint minimum, whose value is the best statistic; every value the function takes inside the confidence region belongs to the computed set; every computed value is within the relative distance `\u221a(rtol\u00b7\u0394)` of such a value; hence for a positive function the ends of the computed set enclose the exact ends and exceed them by at most that relative amount. Missing with respect to C73: the documentation promises the relative tolerance `rtol` (`C73_rtol_refuted`), and a best-fit value of zero (`C73_zero_refuted`)."
  },
  {
   "property": "C74",
   "status": "partial",
   "theorems": [
    "Elisa.Infer.C74_datasets",
    "Elisa.Infer.C74_components_partial",
    "Elisa.Infer.C74_labels_refuted",
    "Elisa.Infer.C74_override_boot",
    "Elisa.Infer.C74_override_refuted",
    "Elisa.Infer.C74_log_invariant",
    "Elisa.Infer.C74_unit_flux_refuted",
    "Elisa.Infer.C74_dist_refuted"
   ],
   "note": "The property as stated is false of the code; refuted: [C74_labels_refuted] (components, refuted). Names may contain underscores, and then two different components of two datasets can share one internal label: component `b_c` of dataset `a` is reported with the standard error and the interval of component `c` of dataset `a_b`. [C74_override_refuted] (override, refuted). With the profile method the interval and the standard error ignore `params` (as the warning says) but the reported value and the errors use it: for every fit whose search returns the interval `[1/2, 3/2]` around the best fit `1`, overriding the parameter by `10` reports the value `10`, the interval `[1/2, 3/2]` and two negative \"errors\". [C74_unit_flux_refuted] (unit flux, refuted). The search divides by the logarithm of the flux at the best fit: if that flux is exactly 1 in the working unit, the function handed to the minimiser has no value anywhere. [C74_dist_refuted] (distribution, refuted). The distribution returned with the bootstrap intervals lists every model parameter as if it were an intensity, and omits every dataset that shares the model of an earlier one. Proved part: [C74_components_partial] (components, partial). When no component name contains an underscore, every component of every dataset is reported with its own value, error and interval."
  },
  {
   "property": "C75",
   "status": "partial",
   "theorems": [
    "Elisa.Infer.C75_propagation",
    "Elisa.Infer.C75_information",
    "Elisa.Infer.C75_source",
    "Elisa.Infer.C75_selection",
    "Elisa.Infer.C75_posterior_partial",
    "Elisa.Infer.C75_single_refuted",
    "Elisa.Infer.C75_posterior_composite_refuted",
    "Elisa.Infer.C75_posterior_fn_refuted",
    "Elisa.Infer.C75_sample_covariance",
    "Elisa.Infer.C75_samples_partial",
    "Elisa.Infer.C75_samples_refuted",
    "Elisa.Infer.C75_posterior_composite_error"
   ],
   "note": "The property as stated is false of the code; refuted: [C75_single_refuted] violation: with a single free parameter and no functions the posterior covariance is never available, because the 1x1 matrix is reduced to a number before it is indexed; the same happens in a bootstrap of a one-parameter model. [C75_posterior_composite_refuted] violation for composite parameters: the samples hold the free parameters only. A request for one free and one composite parameter, each of which is accepted, returns the variance of the free parameter in all four entries: as variance of the composite parameter and as covariance of the two. [C75_posterior_fn_refuted] second violation for composite parameters: a user function of a composite parameter passes the check of the function but fails with a `KeyError` when it is evaluated on the posterior samples. [C75_samples_refuted] violation: at most 10000 posterior samples are not reduced, so that the default parallel evaluation of functions fails whenever their number is no multiple of the number of devices. Proved part: [C75_posterior_partial] posterior samples (partial: only free parameters are requested, and there are at least two columns). The entries are the sample covariances of the requested names. Missing with respect to C75: `C75_single_refuted` and `C75_posterior_composite_refuted`. [C75_samples_partial] number of samples (partial): bootstrap samples, and more than 10000 posterior samples, are always reduced to a multiple of the number of devices, dropping fewer than that number of them (from 10000). Missing: `C75_samples_refuted`."
  },
  {
   "property": "C76",
   "status": "partial",
   "theorems": [
    "Elisa.Models.Settings.C76_band_current",
    "Elisa.Models.Settings.C76_band_last_accepted",
    "Elisa.Models.Settings.C76_obtained_kept",
    "Elisa.Models.Settings.C76_band_ordered_partial",
    "Elisa.Models.Settings.C76_any_band_selectable",
    "Elisa.Models.Settings.C76_flux_in_current_band",
    "Elisa.Models.Settings.C76_unvalidated_refuted",
    "Elisa.Models.Settings.C76_absorption_current",
    "Elisa.Models.Settings.C76_absorption_assign"
   ],
   "note": "The property as stated is false of the code; refuted: [C76_unvalidated_refuted] for unusable settings, all of which are accepted: NaN ends, a logarithmic band that starts at zero, zero or negative numbers of points. With one point there is no bin at all, the flux in the band is computed to be 0 for every model and the normalisation divides by it. Proved part: [C76_band_ordered_partial] With ordinary numbers the band is never empty or reversed, whatever the order of the assignments. Missing: NaN passes the checks, `C76_unvalidated_refuted`."
  },
  {
   "property": "C77",
   "status": "partial",
   "theorems": [
    "Elisa.Infer.Resample.C77_reuse_unobservable",
    "Elisa.Infer.Resample.C77_last_success",
    "Elisa.Infer.Resample.C77_failure_and_gof",
    "Elisa.Infer.Resample.C77_recorded",
    "Elisa.Infer.Resample.C77_boot",
    "Elisa.Infer.Resample.C77_boot_history",
    "Elisa.Infer.Resample.C77_ppc_history",
    "Elisa.Infer.Resample.C77_joint_draws",
    "Elisa.Infer.Resample.C77_ppc_rows_partial",
    "Elisa.Infer.Resample.C77_ppc_data_fits",
    "Elisa.Infer.Resample.C77_ppc_rows_refuted",
    "Elisa.Infer.Resample.C77_seed"
   ],
   "note": "The property as stated is false of the code; refuted: [C77_ppc_rows_refuted] for predictive checks with an invalid fit: the replicated parameters keep the rows that the data and the fits lost, so that rows no longer correspond. Proved part: [C77_ppc_rows_partial] When every fit of a predictive check is valid, row `i` of the replicated parameters, of the simulated data and of the fits belong to the same draw. Missing: invalid fits, `C77_ppc_rows_refuted`."
  },
  {
   "property": "C78",
   "status": "partial",
   "theorems": [
    "Elisa.Infer.Resample.C78_plots_current_partial",
    "Elisa.Infer.Resample.C78_after_plot",
    "Elisa.Infer.Resample.C78_stale_plot_refuted"
   ],
   "note": "The property as stated is false of the code; refuted: [C78_stale_plot_refuted] when the address of a discarded simulation is used again: plot, simulate twice, plot. The second simulation is stored elsewhere while the first is alive; the third may take the address of the first; the cache then believes that nothing changed and the plot shows the first simulation. Proved part: [C78_plots_current_partial] As long as no address is used twice, every plotted quantity that is cached shows the current simulation: in any history of simulations and plots, what the next plot shows is computed from the last simulation (or from the absence of one). Missing: Python reusing the address of a discarded simulation, `C78_stale_plot_refuted`."
  },
  {
   "property": "C79",
   "status": "partial",
   "theorems": [
    "Elisa.Infer.C79_start",
    "Elisa.Infer.C79_unknown_ignored",
    "Elisa.Infer.C79_unknown_method",
    "Elisa.Infer.C79_lm",
    "Elisa.Infer.C79_lm_partial",
    "Elisa.Infer.C79_ns_partial",
    "Elisa.Infer.C79_ns_interrupted",
    "Elisa.Infer.C79_lm_refuted",
    "Elisa.Infer.C79_ns_refuted",
    "Elisa.Infer.C79_ns_empty"
   ],
   "note": "The property as stated is false of the code; refuted: [C79_lm_refuted] After a first `lm` call that failed because its step limit was too small, calling again with the default limit fails in the same way, although a new fit would succeed. [C79_ns_refuted] After a search that was interrupted, retrying fails with an `AttributeError`, although a new fit would succeed. Proved part: [C79_lm_partial] If every earlier `lm` call used the settings of this one, the outcome is that of a fresh fit. Missing: histories in which the settings differ (see `C79_lm_refuted`). [C79_ns_partial] If no search was interrupted and every earlier `ns` call used the settings of this one, Minuit starts from a sample of the search whose total log-likelihood is the largest of all samples, whatever `init` was; and the outcome is that of a fresh fit. Missing: histories with other settings or an interrupted search (see `C79_ns_interrupted`, `C79_ns_refuted`)."
  },
  {
   "property": "C80",
   "status": "partial",
   "theorems": [
    "Elisa.Infer.C80_adaptation",
    "Elisa.Infer.C80_mean_accept",
    "Elisa.Infer.C80_resume_partial",
    "Elisa.Infer.C80_left_behind",
    "Elisa.Infer.C80_resume_mean",
    "Elisa.Infer.C80_resume_refuted",
    "Elisa.Infer.C80_resume_mean_refuted"
   ],
   "note": "The property as stated is false of the code; refuted: [C80_resume_refuted] A state saved after a run with `warmup=2, steps=2`, used as `post_warmup_state` of a run with a larger `warmup` (for instance the default 2000), goes on being adapted although the resumed run has no warm-up transitions: its draws are made with changing step sizes. [C80_resume_mean_refuted] If the resumed run is given another `warmup`, the statistic shown is no mean of acceptance rates: after four sampling transitions with rate `1/2` and one resumed transition with rate `1` it is neither the mean over all five nor that of the resumed one. Proved part: [C80_resume_partial] A run resumed from a saved state that has already made at least `warmup` transitions (the `warmup` of the resumed run) never adapts: every transition uses the same tuning. Missing: saved states with fewer transitions (`C80_resume_refuted`)."
  },
  {
   "property": "C81",
   "status": "proved",
   "theorems": [
    "Elisa.Infer.C81_states",
    "Elisa.Infer.C81_states_only",
    "Elisa.Infer.C81_start",
    "Elisa.Infer.C81_draws",
    "Elisa.Infer.C81_stats"
   ],
   "note": ""
  },
  {
   "property": "C82",
   "status": "partial",
   "theorems": [
    "Elisa.Infer.C82_eti_content",
    "Elisa.Infer.C82_eti_nested",
    "Elisa.Infer.C82_order",
    "Elisa.Infer.C82_eti_units",
    "Elisa.Infer.C82_hdi",
    "Elisa.Infer.C82_hdi_median_refuted",
    "Elisa.Infer.C82_fn_partial",
    "Elisa.Infer.C82_hdi_fn_refuted",
    "Elisa.Infer.C82_hdi_fn_error",
    "Elisa.Infer.C82_fn_sample"
   ],
   "note": "The property as stated is false of the code; refuted: [C82_hdi_median_refuted] The errors reported with `hdi=True` are measured from the median, which the highest-density interval need not contain: both errors can be negative. [C82_hdi_fn_refuted] `ci(fn=\u2026, hdi=True)`, and with it `flux`, `lumin` and `eiso` with `hdi=True`, raise for every function, sample and level. Proved part: [C82_fn_partial] With at most ten thousand draws, asking for the interval of a function that just returns a parameter gives exactly what asking for the parameter gives (equal-tailed). Missing: more draws (a random subsample is used), and `hdi=True` (`C82_hdi_fn_refuted`)."
  },
  {
   "property": "C83",
   "status": "partial",
   "theorems": [
    "Elisa.Infer.C83_bracket",
    "Elisa.Infer.C83_poisson",
    "Elisa.Infer.C83_wstat_partial",
    "Elisa.Infer.C83_wstat_refuted",
    "Elisa.Infer.C83_compared",
    "Elisa.Infer.C83_expectation",
    "Elisa.Infer.C83_own_channels"
   ],
   "note": "The property as stated is false of the code; refuted: [C83_wstat_refuted] For a ratio of `3/10` the value used as \"the next smaller observation\" is not the next smaller one: five counts with background three (net 4.1) have 3.8 as lower value, although four counts without background give 4.0; the weight of such simulations is in neither end. Proved part: [C83_wstat_partial] For `wstat` with whole counts the same is true if the exposure ratio or its inverse is a whole number. Missing: other ratios (`C83_wstat_refuted`)."
  },
  {
   "property": "C84",
   "status": "partial",
   "theorems": [
    "Elisa.Infer.C84_channels",
    "Elisa.Infer.C84_total_of",
    "Elisa.Infer.C84_point_partial",
    "Elisa.Infer.C84_parts",
    "Elisa.Infer.C84_point_refuted",
    "Elisa.Infer.C84_deviance_partial",
    "Elisa.Infer.C84_deviance_refuted",
    "Elisa.Infer.C84_ess_partial",
    "Elisa.Infer.C84_ess_refuted",
    "Elisa.Infer.C84_reff_partial",
    "Elisa.Infer.C84_reff_mcmc",
    "Elisa.Infer.C84_reff_refuted",
    "Elisa.Infer.C84_pareto_partial",
    "Elisa.Infer.C84_pareto_refuted"
   ],
   "note": "The property as stated is false of the code; refuted: [C84_point_refuted] With data sets `A` and `A_total`, the entry `A_total` is the sum over `A`. [C84_deviance_refuted] A data set called `total` has no row of its own: with it and one more data set the table has two rows, and the row `total` is not the deviance of that data set. [C84_ess_refuted] The effective sample size of a parameter called `reff` is lost. [C84_reff_refuted] For nautilus and UltraNest the \"relative\" efficiency is the effective sample size itself, whatever the number of draws: above one in every run with an effective sample size above one (the default asks for 3000), and the number of draws times it is not the effective sample size unless there is a single draw. [C84_pareto_refuted] A channel with `k` exactly `good_k` is counted as `bad` although the row is headed `(good_k, 1]`. Proved part: [C84_point_partial] The entry called like a data set holds the log-likelihoods of its channels, provided it is not called `channels`, `total` or `<other>_total`. [C84_deviance_partial] The deviance table has one row per data set, in order, and a last row `total`, holding minus twice the log-likelihood of the data set and of all data, for all distinct names other than `total`. [C84_ess_partial] The relative efficiency is read back as stored, always; the effective sample sizes are read back as stored, in order, if no parameter is called `reff`. [C84_reff_partial] For jaxns it is the share of effective draws: between zero and one, and the number of draws times it is the effective sample size. [C84_pareto_partial] Every channel is counted once; a channel in `bad` or `very bad` has `k \u2265 good_k`, and the counts are those of the printed ranges if no `k` is exactly `good_k` or one."
  },
  {
   "property": "C85",
   "status": "partial",
   "theorems": [
    "Elisa.Data.C85_fwhm",
    "Elisa.Data.C85_fwhm_zero",
    "Elisa.Data.C85_fwhm_units",
    "Elisa.Data.C85_channel",
    "Elisa.Data.C85_binning_refuted"
   ],
   "note": "The property as stated is false of the code; refuted: [C85_binning_refuted] The optimal binning is meant to use bins narrower than the resolution where there are many counts (Kaastra & Bleeker); a response with enough rows of undefined FWHM switches this off: here the widths do not depend on the counts at all."
  },
  {
   "property": "C86",
   "status": "partial",
   "theorems": [
    "Elisa.Infer.C86_refused",
    "Elisa.Infer.C86_descending_refuted",
    "Elisa.Infer.C86_zero_scale_refuted",
    "Elisa.Infer.C86_zero_background_scale_refuted",
    "Elisa.Infer.C86_background_rate_refuted",
    "Elisa.Infer.C86_simulate",
    "Elisa.Infer.C86_unbiased_partial",
    "Elisa.Infer.C86_from_data",
    "Elisa.Infer.C86_from_data_total_partial"
   ],
   "note": "The property as stated is false of the code; refuted: [C86_descending_refuted] An observation whose channels are listed in descending order of energy can be loaded, given energy ranges and fitted, but no model can ever be simulated from its configuration: whatever the generator, the model and the exposures, the call raises. [C86_zero_scale_refuted] With an area scale of zero in a good channel, the counts are drawn with mean zero, but the simulated observation records an area scale of one: a fit of the very model that was simulated expects one count. [C86_zero_background_scale_refuted] An observation with Poisson counts whose background scale is zero in a channel flagged bad is legal, but no model can be simulated from its configuration: the mean of that channel is not finite and the call raises. [C86_background_rate_refuted] With another background exposure, the simulated background has the expected counts of the data, not their rate: the expected background counts do not depend on the exposure asked for, while the exposure recorded does, so doubling it halves the background rate of the simulation and of the source region. Proved part: [C86_unbiased_partial] Take a simulated observation, group and filter it in any way, and let the model be evaluated at the parameters it was simulated with. In every group whose good channels have the same positive scales, the expected counts of the source spectrum are exactly what the fit expects there: its source counts plus its background ratio times the expected background counts. [C86_from_data_total_partial] For an additive model and a legal observation in a consistent state, the simulation succeeds if the exposures are positive, the photon grid is that of the response, the channel energies do not run backwards (first lower edge below last upper edge) and, for Poisson source counts, the means are not negative and no background scale is zero."
  },
  {
   "property": "C87",
   "status": "partial",
   "theorems": [
    "Elisa.Models.Slot.C87_assign",
    "Elisa.Models.Slot.C87_accepted",
    "Elisa.Models.Slot.C87_number",
    "Elisa.Models.Slot.C87_errors",
    "Elisa.Models.Slot.C87_getitem",
    "Elisa.Models.Slot.C87_label_refuted",
    "Elisa.Models.Slot.C87_mapping_refuted",
    "Elisa.Models.Slot.C87_misspelt_refuted"
   ],
   "note": "The property as stated is false of the code; refuted: [C87_label_refuted] Linking two slots changes the label of the first: the parameter shown as `\\alpha` in the first component, given to a slot declared with the label `K`, is shown as `K` everywhere, though the first slot was not assigned. [C87_mapping_refuted] The same three numbers given as a mapping and as a sequence make different parameters: a parameter declared on a logarithmic scale becomes linear when a mapping leaves out `log`, and one declared fixed becomes free when it leaves out `fixed`. [C87_misspelt_refuted] A misspelt optional key is ignored: `{\"default\", \"min\", \"max\", \"Fixed\": True}` makes a free parameter, while any value for `fixed` other than a Boolean counts by its truth, so that `\"fixed\": \"False\"` fixes it."
  },
  {
   "property": "C88",
   "status": "partial",
   "theorems": [
    "Elisa.Models.Slot.C88_signature",
    "Elisa.Models.Slot.C88_required",
    "Elisa.Models.Slot.C88_call",
    "Elisa.Models.Slot.C88_prototype",
    "Elisa.Models.Slot.C88_subclass_refuted",
    "Elisa.Models.Slot.C88_failed_refuted"
   ],
   "note": "The property as stated is false of the code; refuted: [C88_subclass_refuted] A concrete component cannot be subclassed: whatever its bases, a class derived from it (first in the method resolution order after the subclass) raises `TypeError` on every instantiation, whether or not it declares parameters of its own. [C88_failed_refuted] A constructor that raises is not without effect: a parameter given to an earlier slot is recorded as belonging to a component that never came to exist."
  },
  {
   "property": "C89",
   "status": "partial",
   "theorems": [
    "Elisa.Util.Report.C89_errors",
    "Elisa.Util.Report.C89_value_partial",
    "Elisa.Util.Report.C89_carry_refuted",
    "Elisa.Util.Report.C89_zero_refuted"
   ],
   "note": "The property as stated is false of the code; refuted: [C89_carry_refuted] Whenever the significand rounds up to the next power of ten, the value shown is too small by a factor of ten: the significand is shown as one, with the exponent of the decade below. [C89_zero_refuted] A value of zero cannot be reported at all. Proved part: [C89_value_partial] The value shown is the value up to half a unit of the last decimal shown, in scientific notation with one digit before the point, exactly for values of at most `10^-min_exponent` or at least `10^max_exponent`. Missing: values whose significand rounds up to the next power of ten, see `C89_carry_refuted`, and zero, see `C89_zero_refuted`."
  },
  {
   "property": "C90",
   "status": "partial",
   "theorems": [
    "Elisa.Models.Info.C90_array_partial",
    "Elisa.Models.Info.C90_shared_refuted",
    "Elisa.Models.Info.C90_errors",
    "Elisa.Models.Info.C90_mapping",
    "Elisa.Models.Info.C90_mapping_errors",
    "Elisa.Models.Info.C90_default",
    "Elisa.Models.Info.C90_fixed_refuted",
    "Elisa.Models.Info.C90_folded",
    "Elisa.Models.Info.C90_folded_additive"
   ],
   "note": "The property as stated is false of the code; refuted: [C90_shared_refuted] A free parameter that feeds two slots makes every array of parameters an error, whatever its shape. [C90_fixed_refuted] Fixed parameters can be given by name, but in a model without free parameters arrays of them are not a batch: nothing is mapped over, the arrays meet the energy bins. With two bins (model 10 K, 20 K) and K = [1, 5] the result is one spectrum, [10, 100], whose bins belong to different amplitudes, instead of the two spectra [10, 20] and [50, 100]; and different shapes are not noticed. Proved part: [C90_array_partial] Without sharing and with distinct names, an array of shape `(..., number of parameters)` is evaluated row by row: the result has the leading shape and its element `idx` is the value of the model for the parameters `a[idx, :]` in the order of `params_name`. (Missing: models in which a free parameter feeds several slots, for which every array is refused, `C90_shared_refuted`.)"
  },
  {
   "property": "C91",
   "status": "partial",
   "theorems": [
    "Elisa.Models.Xspec.C91_names",
    "Elisa.Models.Xspec.C91_values",
    "Elisa.Models.Xspec.C91_config",
    "Elisa.Models.Xspec.C91_slots",
    "Elisa.Models.Xspec.C91_bounds_refuted",
    "Elisa.Models.Xspec.C91_norm_refuted",
    "Elisa.Models.Xspec.C91_grad",
    "Elisa.Models.Xspec.C91_grad_refuted",
    "Elisa.Models.Xspec.C91_range",
    "Elisa.Models.Xspec.C91_convolution_partial",
    "Elisa.Models.Xspec.C91_identity",
    "Elisa.Models.Xspec.C91_nhigh_refuted",
    "Elisa.Models.Xspec.C91_touching_refuted",
    "Elisa.Models.Xspec.C91_defaults",
    "Elisa.Models.Xspec.C91_supports"
   ],
   "note": "The property as stated is false of the code; refuted: [C91_bounds_refuted] A parameter of XSPEC without bounds (a switch or a scale) and with a default below -1 or above 1e10 has a default outside the bounds declared for it, so that the component cannot be created. [C91_norm_refuted] An additive model with a parameter that is itself called `norm`: XSPEC gets one value less than it has parameters. [C91_grad_refuted] A method assigned after the first evaluation (or compilation) is reported by `grad_method` but never used. [C91_nhigh_refuted] With `high_ngrid=0` the slice `[nlow:-0]` is empty: the convolved model has no bins at all. [C91_touching_refuted] A grid that begins exactly at `low_energy` (or ends at `high_energy`: 100 keV by default) is accepted, although the message of the error says that it must be inside; then the extension consists of bins of no width. Proved part: [C91_convolution_partial] For an increasing grid strictly inside the extension and at least one bin above it, the convolution is evaluated on a strictly increasing grid from `low_energy` to `high_energy` that contains the grid, and the bins returned are those of the grid: bin `i` of the result is the bin from edge `i` to edge `i + 1`. (Missing: a grid that begins at `low_energy` or ends at `high_energy`, `C91_touching_refuted`; no bins above, `C91_nhigh_refuted`.)"
  },
  {
   "property": "C92",
   "status": "partial",
   "theorems": [
    "Elisa.Plot.C92_step",
    "Elisa.Plot.C92_value",
    "Elisa.Plot.C92_errors",
    "Elisa.Plot.C92_ribbon",
    "Elisa.Plot.C92_ribbon_drawn",
    "Elisa.Plot.C92_egrid",
    "Elisa.Plot.C92_unfolded",
    "Elisa.Plot.C92_narrow_refuted",
    "Elisa.Plot.C92_limits",
    "Elisa.Plot.C92_limits_refuted"
   ],
   "note": "The property as stated is false of the code; refuted: [C92_narrow_refuted] Channels that all lie within one photon bin: no photon bin is left to draw, and the plot of the unfolded spectrum raises. [C92_limits_refuted] Data with a zero whose maximum is below `1e-26` (energy fluxes in erg can be that small): the lower limit is the logarithm of zero."
  },
  {
   "property": "C93",
   "status": "partial",
   "theorems": [
    "Elisa.Plot.C93_band",
    "Elisa.Plot.C93_symmetric",
    "Elisa.Plot.C93_nested",
    "Elisa.Plot.C93_levels",
    "Elisa.Plot.C93_marks",
    "Elisa.Plot.C93_normal",
    "Elisa.Plot.C93_nolevel_refuted",
    "Elisa.Plot.C93_unfolded_mle",
    "Elisa.Plot.C93_unfolded_levels",
    "Elisa.Plot.C93_unfolded_posterior",
    "Elisa.Plot.C93_all_replaced",
    "Elisa.Plot.C93_mle_refuted",
    "Elisa.Plot.C93_nocl_refuted",
    "Elisa.Plot.C93_folded"
   ],
   "note": "The property as stated is false of the code; refuted: [C93_nolevel_refuted] No level at all is accepted by the configuration; marking outliers then raises. [C93_mle_refuted] The curve of a maximum likelihood fit need not lie in its band: the simulations can all be on one side of it. [C93_nocl_refuted] For a posterior, asking for the unfolded model without a level raises."
  },
  {
   "property": "C94",
   "status": "partial",
   "theorems": [
    "Elisa.Plot.C94_ecdf",
    "Elisa.Plot.C94_pit_detrend",
    "Elisa.Plot.C94_pit_cover",
    "Elisa.Plot.C94_positions",
    "Elisa.Plot.C94_points",
    "Elisa.Plot.C94_detrend",
    "Elisa.Plot.C94_sim_band",
    "Elisa.Plot.C94_theor_band",
    "Elisa.Plot.C94_gof_partial",
    "Elisa.Plot.C94_gof_refuted",
    "Elisa.Plot.C94_text",
    "Elisa.Plot.C94_total_partial",
    "Elisa.Plot.C94_total_refuted"
   ],
   "note": "The property as stated is false of the code; refuted: [C94_gof_refuted] The axis says `P(D >= d)`, but at a simulated deviance the curve shows the share of the simulations above it: `1 / n` too little; at the largest it shows zero, which a logarithmic axis cannot show. [C94_total_refuted] A data set may be called `total`; its panel then shows the values of all data sets instead of its own. Proved part: [C94_gof_partial] To the right of a point of the curve, up to the next, the height of the point is the p-value: the share of the simulations that reach the deviance. The text beside the curve is the p-value, or says that it is below `1 / n` when no simulation reaches the observation. (Missing: at the points themselves, `C94_gof_refuted`.) [C94_total_partial] The panel `total` holds the values of all data sets, and every other data set keeps its own. (Missing: a data set called `total`, `C94_total_refuted`.)"
  },
  {
   "property": "C95",
   "status": "partial",
   "theorems": [
    "Elisa.Plot.C95_words",
    "Elisa.Plot.C95_unknown",
    "Elisa.Plot.C95_space_refuted",
    "Elisa.Plot.C95_figures",
    "Elisa.Plot.C95_needs",
    "Elisa.Plot.C95_panels",
    "Elisa.Plot.C95_residuals",
    "Elisa.Plot.C95_labels",
    "Elisa.Plot.C95_both_refuted",
    "Elisa.Plot.C95_jansky"
   ],
   "note": "The property as stated is false of the code; refuted: [C95_space_refuted] White space before the first word (or after the last) is not ignored: the request is refused, and so is an empty one. [C95_both_refuted] Two ways of showing `E N(E)`, or two types of residuals, asked for together: only one panel is made, the others are left out without notice."
  },
  {
   "property": "C96",
   "status": "partial",
   "theorems": [
    "Elisa.Data.C96_path",
    "Elisa.Data.C96_leading",
    "Elisa.Data.C96_directory_refuted",
    "Elisa.Data.C96_row",
    "Elisa.Data.C96_negative_refuted",
    "Elisa.Data.C96_files",
    "Elisa.Data.C96_refused",
    "Elisa.Data.C96_background_kept",
    "Elisa.Data.C96_type_two",
    "Elisa.Data.C96_accepted",
    "Elisa.Data.C96_group"
   ],
   "note": "The property as stated is false of the code; refuted: [C96_directory_refuted] A pair of braces in the middle of a path is taken for a number as well: a spectrum in a directory whose name contains braces is never read \u2014 the text before the brace is opened instead, or, if the text between the braces is no integer, the call raises `ValueError`. [C96_negative_refuted] A negative number is not refused: `file{-1}` is the last row but one, `file{-2}` the one before, and so on; nothing selects the last row in this way."
  },
  {
   "property": "C97",
   "status": "proved",
   "theorems": [
    "Elisa.Infer.C97_bins",
    "Elisa.Infer.C97_powerlaw",
    "Elisa.Infer.C97_member",
    "Elisa.Infer.C97_fit"
   ],
   "note": ""
  },
  {
   "property": "C98",
   "status": "partial",
   "theorems": [
    "Elisa.Plot.C98_deviance",
    "Elisa.Plot.C98_pearson_partial",
    "Elisa.Plot.C98_concentrated",
    "Elisa.Plot.C98_concentrated_pearson",
    "Elisa.Plot.C98_quantile",
    "Elisa.Plot.C98_mle_refuted"
   ],
   "note": "The property as stated is false of the code; refuted: [C98_mle_refuted] the residuals of the maximum likelihood model are not returned, although this model is at hand (`PosteriorResult.mle` computes it when needed), unless a posterior predictive check was run before. Proved part: [C98_pearson_partial] (Pearson residuals; partial). The residual of each channel exists (for `wstat`: if there are off counts in every channel, see C53), its size is the leave-one-out mean of the sizes of the Pearson residuals of the draws \u2014 hence at most their root mean square \u2014 and its sign is that of the net counts minus the leave-one-out mean of the source counts."
  },
  {
   "property": "C99",
   "status": "partial",
   "theorems": [
    "Elisa.Plot.Cache.C99_fresh_partial",
    "Elisa.Plot.Cache.C99_drawn_partial",
    "Elisa.Plot.Cache.C99_stale_refuted"
   ],
   "note": "The property as stated is false of the code; refuted: [C99_stale_refuted] simulations are run and a plot is drawn, two more runs follow, and the memory of the first run, free since the second, is given to the third: the plot then shows the first simulations. All addresses are as Python may give them out. Proved part: [C99_fresh_partial] (partial). As long as no run of simulations is stored at an address used before by earlier ones, every cached quantity \u2014 also one computed from another cached quantity \u2014 is, at every call of every history, the one that belongs to the simulations in force. [C99_drawn_partial] (plots between runs; partial). Whatever addresses Python gives out: if the plot is drawn between any two runs of simulations (and at least once before the second run that follows the making of the plot), it always shows the simulations in force."
  },
  {
   "property": "C100",
   "status": "partial",
   "theorems": [
    "Elisa.Plot.Settings.C100_assign",
    "Elisa.Plot.Settings.C100_settings",
    "Elisa.Plot.Settings.C100_colors_partial",
    "Elisa.Plot.Settings.C100_colors_refuted",
    "Elisa.Plot.Settings.C100_refused",
    "Elisa.Plot.Settings.C100_markers_partial",
    "Elisa.Plot.Settings.C100_markers_refuted",
    "Elisa.Plot.Settings.C100_ndata_partial",
    "Elisa.Plot.Settings.C100_ndata_refuted"
   ],
   "note": "The property as stated is false of the code; refuted: [C100_colors_refuted] for the palette `None`, which the settings accept: a new plotter then has no colours. [C100_markers_refuted] for nine data sets, although the list has nine entries: the third and the ninth have the same marker. [C100_ndata_refuted] for a data set called \"total\": its own number of data is replaced. Proved part: [C100_colors_partial] After any history of choosing colours, resetting them, changing the palette or the settings and reading the colours, reading gives the colours that were last chosen for all data sets, if they have not been reset since (a refused choice changes nothing), and otherwise one colour per data set from the palette in the settings. Missing: palettes `None` and `'customized'`, see `C100_colors_refuted`. [C100_markers_partial] There is one marker per data set, and up to eight data sets have different markers. Missing: more data sets, see `C100_markers_refuted`. [C100_ndata_partial] If no data set is called \"total\", the numbers of data are those of the data sets, and `total` is their sum. Missing: a data set of this name, see `C100_ndata_refuted`."
  },
  {
   "property": "C101",
   "status": "partial",
   "theorems": [
    "Elisa.Models.Protect.C101_delete",
    "Elisa.Models.Protect.C101_model",
    "Elisa.Models.Protect.C101_component",
    "Elisa.Models.Protect.C101_compiled",
    "Elisa.Models.Protect.C101_method_refuted",
    "Elisa.Models.Protect.C101_define_errors",
    "Elisa.Models.Protect.C101_define_partial",
    "Elisa.Models.Protect.C101_define_refuted"
   ],
   "note": "The property as stated is false of the code; refuted: [C101_method_refuted] A method of a model can be replaced: `model.compile = x` is accepted, and `model.compile` is then `x`. [C101_define_refuted] A list of declarations is accepted like a tuple, but the class gets no parameters: the attributes are never made into parameters. Proved part: [C101_define_partial] A class body with a tuple of parameter declarations is accepted exactly if the tuple is not empty, all its entries are `ParamConfig`s and all methods that have to be static are; the class then has exactly the declared parameters. Missing: configurations that are not tuples, see `C101_define_refuted`."
  },
  {
   "property": "C102",
   "status": "partial",
   "theorems": [
    "Elisa.Infer.Store.C102_loaded",
    "Elisa.Infer.Store.C102_refused",
    "Elisa.Infer.Store.C102_others",
    "Elisa.Infer.Store.C102_interrupted_partial",
    "Elisa.Infer.Store.C102_interrupted_refuted"
   ],
   "note": "The property as stated is false of the code; refuted: [C102_interrupted_refuted] Saving over an existing file destroys it before anything is written: if the save is cut off at once (pickling raises, say), the result saved before can no longer be loaded, whatever the results. Proved part: [C102_interrupted_partial] If the last save to a file was cut off at any point, loading the file (with any algorithm) gives the result of this save or an exception, never another result and never one that was saved before. Missing: that the result saved before is still there, see `C102_interrupted_refuted`."
  },
  {
   "property": "C103",
   "status": "partial",
   "theorems": [
    "Elisa.Infer.Summary.C103_mean",
    "Elisa.Infer.Summary.C103_std",
    "Elisa.Infer.Summary.C103_std_refuted",
    "Elisa.Infer.Summary.C103_median",
    "Elisa.Infer.Summary.C103_deviance",
    "Elisa.Infer.Summary.C103_best_fit",
    "Elisa.Infer.Summary.C103_divergence_partial",
    "Elisa.Infer.Summary.C103_divergence_refuted"
   ],
   "note": "The property as stated is false of the code; refuted: [C103_std_refuted] The standard deviation reported for a flux or other function is not the one reported for a parameter, even if the function returns the parameter: its square is smaller by the factor (n-1)/n, and a single draw has the standard deviation 0 instead of NaN. [C103_divergence_refuted] for a sampler whose statistics have no entry `diverging`: reading the number raises `KeyError`. Proved part: [C103_divergence_partial] The number of divergent draws is reported for samplers that record it, 0 for samplers that record nothing. Missing: samplers that record other statistics only, see `C103_divergence_refuted`."
  },
  {
   "property": "C104",
   "status": "partial",
   "theorems": [
    "Elisa.Models.Spectra.C104_profile",
    "Elisa.Models.Spectra.C104_flux_partial",
    "Elisa.Models.Spectra.C104_edge_refuted",
    "Elisa.Models.Spectra.C104_inside_refuted",
    "Elisa.Models.Spectra.C104_otts"
   ],
   "note": "The property as stated is false of the code; refuted: [C104_edge_refuted] If the line energy is an edge of the grid, the two bins beside it hold at least `(b - a) / (2 \u221a(2\u03c0) \u03c3)` times the flux of the line: more than any multiple `m` of it if the line is narrow enough. [C104_inside_refuted] As the line becomes narrow, the bin that contains it holds all the flux `K`, but the value given to the bin tends to zero: it is at most a constant times `\u03c3`. Proved part: [C104_flux_partial] On a grid of bins no wider than `h` the bins of a Gaussian line add up to the photon flux of the line in the range of the grid up to `K (e\u2081 - e\u2080) h\u00b2 / (12 \u221a(2\u03c0) \u03c3\u00b3)`: small if the bins are narrow compared to the width of the line. Missing: lines narrower than the bins, see `C104_edge_refuted` and `C104_inside_refuted`."
  },
  {
   "property": "C105",
   "status": "partial",
   "theorems": [
    "Elisa.Infer.Process.C105_restored_partial",
    "Elisa.Infer.Process.C105_raised_refuted",
    "Elisa.Infer.Process.C105_random_refuted",
    "Elisa.Infer.Process.C105_seeded",
    "Elisa.Infer.Process.C105_merge"
   ],
   "note": "The property as stated is false of the code; refuted: [C105_raised_refuted] (a constructor that refuses its arguments, a failing worker, an interrupt): the start method stays `spawn` and, for nautilus, the `Pool` class stays patched \u2014 for the rest of the process, whatever runs follow, successful ones included. [C105_random_refuted] when a run of UltraNest raises: what is left does not depend on the state before, so that all random numbers drawn later by the user's own code are the same whatever seed the user had set. Proved part: [C105_restored_partial] If foreign code leaves the process-wide settings alone but for the random numbers UltraNest draws, then after any history of sampling runs, bootstraps and predictive checks, whether they raised or not, the JAX flag is as before; if no run that starts processes raised, so is the start method; if no run of nautilus raised, so is its `Pool`; if no run of UltraNest raised, so is NumPy's random state. Missing: runs that raise, see `C105_raised_refuted`."
  },
  {
   "property": "C106",
   "status": "partial",
   "theorems": [
    "Elisa.Infer.Evidence.C106_fresh",
    "Elisa.Infer.Evidence.C106_nautilus_partial",
    "Elisa.Infer.Evidence.C106_read_refuted"
   ],
   "note": "The property as stated is false of the code; refuted: [C106_read_refuted] With the default arguments every such call raises `RuntimeError` after reading; with `print_result=False` the draws are those of the earlier run, but the effective sample size is reported as 0 and the evidence as NaN whatever the log says. Proved part: [C106_nautilus_partial] A run of nautilus that reached its goal is described but for the error of the evidence, which is never known; one that did not raises."
  },
  {
   "property": "C107",
   "status": "partial",
   "theorems": [
    "Elisa.Plot.Resp.C107_area",
    "Elisa.Plot.Resp.C107_curve_partial",
    "Elisa.Plot.Resp.C107_curve_refuted",
    "Elisa.Plot.Resp.C107_hatch_partial",
    "Elisa.Plot.Resp.C107_narrow_refuted"
   ],
   "note": "The property as stated is false of the code; refuted: [C107_curve_refuted] A bin is drawn with the area of the next bin: the curve is the effective area only if all bins have the same. [C107_narrow_refuted] the call raises `IndexError`. Proved part: [C107_curve_partial] The curve runs over the photon bins in order, one height per bin; the last bin, and every bin whose area is that of the next one, is shown with its own area. Missing: the other bins, see `C107_curve_refuted`. [C107_hatch_partial] For photon bins in increasing order and noticed ranges that are in order and apart, a photon bin inside a noticed range is not hatched and every other bin is. The call succeeds exactly if every noticed range contains a photon bin. Missing: the case it does not, see `C107_narrow_refuted`."
  },
  {
   "property": "C108",
   "status": "partial",
   "theorems": [
    "Elisa.Plot.Resp.C108_cells",
    "Elisa.Plot.Resp.C108_good",
    "Elisa.Plot.Resp.C108_hatch_partial",
    "Elisa.Plot.Resp.C108_hatch_refuted"
   ],
   "note": "The property as stated is false of the code; refuted: [C108_hatch_refuted] Four channels 1\u20132, 3\u20134, 5\u20136, 6\u20137 keV and the noticed range 1\u20134 keV: the upper edge of the second gap is taken from the wrong channel, and the noticed channel 3\u20134 keV is hatched. Proved part: [C108_hatch_partial] If the channels follow each other without a gap, a channel inside a noticed range is not hatched and every other channel is. Missing: channels with gaps, see `C108_hatch_refuted`."
  },
  {
   "property": "C109",
   "status": "partial",
   "theorems": [
    "Elisa.Data.C109_bar",
    "Elisa.Data.C109_rates",
    "Elisa.Data.C109_sig_partial",
    "Elisa.Data.C109_sig_refuted"
   ],
   "note": "The property as stated is false of the code; refuted: [C109_sig_refuted] Data with zero errors are accepted (with a warning), and then no finite significance is drawn: for Gaussian data without background whenever the good channels of the group have zero errors, for Poisson data with a Gaussian background whenever those of the background have. Proved part: [C109_sig_partial] The significance drawn for a group is finite, has the sign of the excess of the group over the background and an error bar of one unless there is no excess, in these cases: Poisson data with Poisson background; Poisson data with a Gaussian background whose error and ratio are positive (`ratio_pos`: the ratio always is if its counts are non-negative); Poisson data without background, or Gaussian data, with a positive error. Missing: errors that are zero, see `C109_sig_refuted`."
  },
  {
   "property": "C110",
   "status": "proved",
   "theorems": [
    "Elisa.Models.Algebra.C110_name",
    "Elisa.Models.Algebra.C110_latex",
    "Elisa.Models.Algebra.C110_replace"
   ],
   "note": ""
  },
  {
   "property": "C111",
   "status": "partial",
   "theorems": [
    "Elisa.Infer.PostIntensity.C111_statistics",
    "Elisa.Infer.PostIntensity.C111_fixed",
    "Elisa.Infer.PostIntensity.C111_unknown",
    "Elisa.Infer.PostIntensity.C111_components_partial",
    "Elisa.Infer.PostIntensity.C111_components_refuted",
    "Elisa.Infer.PostIntensity.C111_all"
   ],
   "note": "The property as stated is false of the code; refuted: [C111_components_refuted] The median of the flux of a dataset need not be the sum of the medians of its components, at any level: reported medians and intervals of components cannot be added. Proved part: [C111_components_partial] Asking for the components of a model raises when it has fewer than two; otherwise the mean flux of a dataset is the sum of the mean fluxes of its components, and so is the flux of every single draw. Missing: medians and intervals, see `C111_components_refuted`."
  },
  {
   "property": "C112",
   "status": "partial",
   "theorems": [
    "Elisa.Util.Unit.C112_unit_partial",
    "Elisa.Util.Unit.C112_scale_refuted",
    "Elisa.Util.Unit.C112_invalid",
    "Elisa.Util.Unit.C112_param_label"
   ],
   "note": "The property as stated is false of the code; refuted: [C112_scale_refuted] A mantissa that ends in one loses that digit together with the sign of multiplication: the scale `1.1 \u00d7 10\u2075` is shown as `1.10\u2075`, `21 \u00d7 10\u00b3` as `210\u00b3`. Proved part: [C112_unit_partial] For every unit with bases, whatever their order in the text: the label is a TeX formula in roman type in which one reads exactly the bases of the unit, each once and with its own power, in the order in which they are found in the text and bases found at one place in their given order, after the scale of the unit, a mantissa of one in front of a power of ten being left out. Missing: mantissas of several digits that end in one, see `C112_scale_refuted`."
  },
  {
   "property": "C113",
   "status": "proved",
   "theorems": [
    "Elisa.Plot.Quant.C113_normal",
    "Elisa.Plot.Quant.C113_mle_normal",
    "Elisa.Plot.Quant.C113_finite",
    "Elisa.Plot.Quant.C113_sign",
    "Elisa.Plot.Quant.C113_rounded",
    "Elisa.Plot.Quant.C113_plain"
   ],
   "note": ""
  },
  {
   "property": "C114",
   "status": "proved",
   "theorems": [
    "Elisa.Models.Spectra.C114_cutoff",
    "Elisa.Models.Spectra.C114_cutoff_peak",
    "Elisa.Models.Spectra.C114_compt",
    "Elisa.Models.Spectra.C114_ottb",
    "Elisa.Models.Spectra.C114_bent",
    "Elisa.Models.Spectra.C114_edge",
    "Elisa.Models.Spectra.C114_expabs",
    "Elisa.Models.Spectra.C114_expfac",
    "Elisa.Models.Spectra.C114_highecut"
   ],
   "note": ""
  },
  {
   "property": "C115",
   "status": "partial",
   "theorems": [
    "Elisa.Infer.Sites.C115_results_partial",
    "Elisa.Infer.Sites.C115_models_refuted",
    "Elisa.Infer.Sites.C115_params_refuted",
    "Elisa.Infer.Sites.C115_counts_partial",
    "Elisa.Infer.Sites.C115_substituted_partial",
    "Elisa.Infer.Sites.C115_counts_refuted",
    "Elisa.Infer.Sites.C115_total_refuted"
   ],
   "note": "The property as stated is false of the code; refuted: [C115_models_refuted] With data sets `A` and `A_Non_model`, the expected counts reported for `A` are the spectrum of the other one. [C115_params_refuted] A composite parameter with the name of a data set is reported as the spectrum of that data set. [C115_counts_refuted] With data sets `A` and `A_Non`, the counts used when a simulation of `A` is fitted are the net spectrum of the other data set. [C115_total_refuted] The spectrum of a data set called `total` is replaced by the total counts. Proved part: [C115_results_partial] If no name of a data set is another name followed by a reserved ending, and no parameter has the name of a site, then the parameters, model values and likelihoods reported under each name are those of that parameter and that data set, for any number of data sets and any order of evaluation. Missing: names that run into each other, see the refuted theorems. [C115_counts_partial] For data sets whose names do not run into each other and are not `channels` or `total`, the simulated (or observed) data contain, under the names of each data set, its own on counts, off counts and net spectrum, the stacked spectra and the total; fitting a simulation substitutes for each measurement its own simulated counts. Missing: other names, see `C115_counts_refuted`. [C115_substituted_partial] The data substituted when a simulation is fitted: for each measurement its own simulated counts."
  },
  {
   "property": "C116",
   "status": "proved",
   "theorems": [
    "Elisa.Models.Density.C116_refused",
    "Elisa.Models.Density.C116_values",
    "Elisa.Models.Density.C116_meaning",
    "Elisa.Models.Density.C116_flat",
    "Elisa.Models.Density.C116_components",
    "Elisa.Models.Density.C116_flux"
   ],
   "note": ""
  },
  {
   "property": "C117",
   "status": "partial",
   "theorems": [
    "Elisa.Infer.Walk.C117_draws",
    "Elisa.Infer.Walk.C117_continue_partial",
    "Elisa.Infer.Walk.C117_continue_refuted",
    "Elisa.Infer.Walk.C117_zeus_seed",
    "Elisa.Infer.Walk.C117_resumed",
    "Elisa.Infer.Walk.C117_returned",
    "Elisa.Infer.Walk.C117_emcee_seed_refuted",
    "Elisa.Infer.Walk.C117_emcee_process_refuted",
    "Elisa.Infer.Walk.C117_nan",
    "Elisa.Infer.Walk.C117_moves"
   ],
   "note": "The property as stated is false of the code; refuted: [C117_continue_refuted] With tuned moves (the default of zeus) a continued run is not the uninterrupted one: the tuning starts again. [C117_emcee_seed_refuted] In a fresh run with emcee the seed only enters the start positions: with the same positions the draws are the same for all seeds, namely those of the generator found in each process. [C117_emcee_process_refuted] Two runs with the same seed and the same positions in processes with different generators differ. Proved part: [C117_continue_partial] Without tuning, a run of `n\u2081` draws followed by a run of `n\u2082` draws from the states the first one returned \u2014 in another process, with another generator \u2014 is the uninterrupted run of `n\u2081 + n\u2082` draws, draw for draw, and ends in the same states. Missing: tuned moves, see `C117_continue_refuted`."
  },
  {
   "property": "C118",
   "status": "proved",
   "theorems": [
    "Elisa.Infer.Crit.C118_formula",
    "Elisa.Infer.Crit.C118_additive",
    "Elisa.Infer.Crit.C118_order",
    "Elisa.Infer.Crit.C118_bounds",
    "Elisa.Infer.Crit.C118_identical",
    "Elisa.Infer.Crit.C118_constants",
    "Elisa.Infer.Crit.C118_warning"
   ],
   "note": ""
  },
  {
   "property": "C119",
   "status": "proved",
   "theorems": [
    "Elisa.Infer.C119_channel_convex",
    "Elisa.Infer.C119_single_minimum",
    "Elisa.Infer.C119_fit_convex",
    "Elisa.Infer.C119_no_local_minima"
   ],
   "note": ""
  },
  {
   "property": "C120",
   "status": "proved",
   "theorems": [
    "Elisa.Infer.C120_balance"
   ],
   "note": ""
  },
  {
   "property": "C121",
   "status": "proved",
   "theorems": [
    "Elisa.Plot.ErrBar.C121_levels",
    "Elisa.Plot.ErrBar.C121_interval",
    "Elisa.Plot.ErrBar.C121_empty",
    "Elisa.Plot.ErrBar.C121_start"
   ],
   "note": ""
  },
  {
   "property": "C122",
   "status": "partial",
   "theorems": [
    "Elisa.Data.Trim.C122_trim_partial",
    "Elisa.Data.Trim.C122_gap_refuted",
    "Elisa.Data.Trim.C122_empty"
   ],
   "note": "The property as stated is false of the code; refuted: [C122_gap_refuted] With an empty row between two that are not, the matrix loses that row but the energy grid keeps its bin: what comes back does not belong together. Proved part: [C122_trim_partial] A matrix whose empty rows are at its beginning and at its end only, with some row that is not empty: trimming succeeds, leaves exactly the rows between, keeps one more energy than there are rows, and the counts folded with the trimmed matrix over the trimmed energy bins are those folded before, for every spectrum and channel."
  },
  {
   "property": "C123",
   "status": "partial",
   "theorems": [
    "Elisa.Infer.Merge.C123_scales_refuted",
    "Elisa.Infer.Merge.C123_coarser_partial"
   ],
   "note": "The property as stated is false of the code; refuted: [C123_scales_refuted] Two channels with ten counts each and area scales 1 and 1/2. With fluxes 11 and 24 (expected counts 11 and 12) the C statistic is about 0.45; after merging the channels the scale is 2/3, 23.3 of 20 counts are expected, and the statistic is about 0.50. Proved part: [C123_coarser_partial] A statistic is applied to the same observation in two groupings, with the same energy ranges; every group boundary of the second is one of the first. If the scale factors do not vary between the good channels, then at any fluxes of the energy bins the second grouping has the smaller (or the same) statistic. Missing for the full property: varying scale factors, where the merged scale is an average weighted with the data, and the inequality fails (`C123_scales_refuted`)."
  },
  {
   "property": "C124",
   "status": "proved",
   "theorems": [
    "Elisa.Infer.Grad.C124_gradient",
    "Elisa.Infer.Grad.C124_stationary",
    "Elisa.Infer.Grad.C124_component"
   ],
   "note": ""
  },
  {
   "property": "C125",
   "status": "partial",
   "theorems": [
    "Elisa.Util.Suffix.C125_accepted",
    "Elisa.Util.Suffix.C125_history",
    "Elisa.Util.Suffix.C125_data_suffix",
    "Elisa.Util.Suffix.C125_distinct_partial",
    "Elisa.Util.Suffix.C125_template_refuted",
    "Elisa.Util.Suffix.C125_unicode_partial",
    "Elisa.Util.Suffix.C125_unicode_refuted"
   ],
   "note": "The property as stated is false of the code; refuted: [C125_template_refuted] `set_suffix_config` accepts the template `[%.3s]`; the components for the data sets `NaI1` and `NaI2` then have the same name. [C125_unicode_refuted] Several letters share a superscript form (`C` and `c`, `F` and `f`, `Q` and `q`, `S` and `s`, `Y` and `y`, `Z` and `z`): the components for the data sets `detC` and `detc` have the same name although the configuration is accepted. Proved part: [C125_distinct_partial] With plain suffixes, templates `pre%spost` and `pre'%spost'` that begin with marks `m` and `m'` not occurring in the class names (`m'` also not in the number suffix) give every component of a fit its own name, whatever the data sets are called. Not proved, because false: distinct names for every accepted configuration \u2014 see `C125_template_refuted` (a template that cuts the suffix) and `C125_unicode_refuted`. [C125_unicode_partial] With unicode suffixes every component of a fit has its own name if the data suffixes can be written in superscript without loss and the class names contain no subscript digits. Not proved, because false: distinct names for all data set names \u2014 see `C125_unicode_refuted`."
  },
  {
   "property": "C126",
   "status": "proved",
   "theorems": [
    "Elisa.Infer.Limit.C126_pgstat",
    "Elisa.Infer.Limit.C126_wstat",
    "Elisa.Infer.Limit.C126_errors",
    "Elisa.Infer.Limit.C126_zero_background",
    "Elisa.Infer.Limit.C126_chi2"
   ],
   "note": ""
  },
  {
   "property": "C127",
   "status": "proved",
   "theorems": [
    "Elisa.Infer.Unique.C127_strict",
    "Elisa.Infer.Unique.C127_predictions",
    "Elisa.Infer.Unique.C127_unique"
   ],
   "note": ""
  },
  {
   "property": "C128",
   "status": "partial",
   "theorems": [
    "Elisa.Infer.Tables.C128_stat_partial",
    "Elisa.Infer.Tables.C128_total_refuted",
    "Elisa.Infer.Tables.C128_params",
    "Elisa.Infer.Tables.C128_ic",
    "Elisa.Infer.Tables.C128_info",
    "Elisa.Infer.Tables.C128_data"
   ],
   "note": "The property as stated is false of the code; refuted: [C128_total_refuted] With a single data set of this name the table has no row for it: whatever its statistic, the only row is that of the total. Proved part: [C128_stat_partial] If the data sets have distinct names, none of them `total`, the table has one row per data set, in order: its name, its statistic, the value of that statistic to the nearest hundredth, and the number of its channels. The last row shows the total of the statistics to the nearest hundredth, the total number of channels, and that number less the number of free parameters as degrees of freedom. The values shown add up to the total shown, within half a hundredth per row. Missing: a data set may be named `total`, see `C128_total_refuted`."
  },
  {
   "property": "C129",
   "status": "proved",
   "theorems": [
    "Elisa.Infer.Order.C129_input",
    "Elisa.Infer.Order.C129_result",
    "Elisa.Infer.Order.C129_names"
   ],
   "note": ""
  },
  {
   "property": "C130",
   "status": "proved",
   "theorems": [
    "Elisa.Infer.Exist.C130_continuous",
    "Elisa.Infer.Exist.C130_best_fit",
    "Elisa.Infer.Exist.C130_open_bounds"
   ],
   "note": ""
  },
  {
   "property": "C131",
   "status": "proved",
   "theorems": [
    "Elisa.Plot.Compare.C131_channel",
    "Elisa.Plot.Compare.C131_fit"
   ],
   "note": ""
  },
  {
   "property": "C132",
   "status": "partial",
   "theorems": [
    "Elisa.Models.Nest.C132_freeze",
    "Elisa.Models.Nest.C132_freeze_best",
    "Elisa.Models.Nest.C132_freeze_count",
    "Elisa.Models.Nest.C132_link_partial",
    "Elisa.Models.Nest.C132_link_refuted"
   ],
   "note": "The property as stated is false of the code; refuted: [C132_link_refuted] Linking a slot to a parameter with wider bounds widens what the slot can receive: with the normalisations bounded by `[0, 10]` and `[0, 1]`, the model with the second linked to the first reaches the value 0 of a statistic of which the original model never gets below 16, with one free parameter less. Proved part: [C132_link_partial] A slot holding a free parameter used nowhere else is given an expression of other parameters. Whenever the value of that expression is inside the bounds of the replaced parameter, the linked model receives the same values as the original model does with that parameter set to the value of the expression. `_partial`: the value of the expression must be inside the bounds of the replaced parameter, which the code does not require (`C132_link_refuted`)."
  },
  {
   "property": "C133",
   "status": "partial",
   "theorems": [
    "Elisa.Models.Catalogue.C133_component_partial",
    "Elisa.Models.Catalogue.C133_bounds_refuted",
    "Elisa.Models.Catalogue.C133_model_partial",
    "Elisa.Models.Catalogue.C133_add_absorb_partial",
    "Elisa.Models.Catalogue.C133_counts",
    "Elisa.Models.Catalogue.C133_defaults",
    "Elisa.Models.Catalogue.C133_defaults_conv"
   ],
   "note": "The property as stated is false of the code; refuted: [C133_bounds_refuted] Settings the declared bounds allow and the formulas do not: a Gaussian line or absorption line of zero width, an edge at zero energy, and the index 1 of `PLAbs` give no number, at any energy. Proved part: [C133_component_partial] A library component with all its parameters inside the bounds its class declares gives, in every bin of every grid of positive increasing energies, a number that is not negative, the one of the plain formula. `_partial`: the declared bounds include points where the formula is no number (`Regular` excludes them); see `C133_bounds_refuted`. [C133_model_partial] A model built from library components by `+`, `*` and convolutions, with parameters inside the declared bounds, is not negative in any bin of any grid of positive increasing energies. [C133_add_absorb_partial] Adding a component to a model never lowers it in any bin; putting an absorber in front of it never raises it."
  },
  {
   "property": "C134",
   "status": "partial",
   "theorems": [
    "Elisa.Infer.FitFlux.C134_lumin",
    "Elisa.Infer.FitFlux.C134_eiso",
    "Elisa.Infer.FitFlux.C134_flux",
    "Elisa.Infer.FitFlux.C134_photon",
    "Elisa.Infer.FitFlux.C134_adjacent",
    "Elisa.Infer.FitFlux.C134_energy",
    "Elisa.Infer.FitFlux.C134_source",
    "Elisa.Infer.FitFlux.C134_one_point_refuted",
    "Elisa.Infer.FitFlux.C134_reversed_refuted"
   ],
   "note": "The property as stated is false of the code; refuted: [C134_one_point_refuted] (refuted: unusable requests are accepted). With a grid of one point `flux` reports zero for every data set, every model and both kinds of flux, and does not complain. [C134_reversed_refuted] (refuted: a reversed band is accepted). Asking for the photon flux of `N = 1` between 2 and 1 keV on a linear grid of two points reports -1, and does not complain."
  },
  {
   "property": "C135",
   "status": "partial",
   "theorems": [
    "Elisa.Infer.Bayes.C135_prior",
    "Elisa.Infer.Bayes.C135_posterior",
    "Elisa.Infer.Bayes.C135_flat",
    "Elisa.Infer.Bayes.C135_own_scale",
    "Elisa.Infer.Bayes.C135_evidence",
    "Elisa.Infer.Bayes.C135_mode_refuted"
   ],
   "note": "The property as stated is false of the code; refuted: [C135_mode_refuted] (refuted: log-uniform priors). With the default log-uniform prior of a parameter the most probable value of the parameter is not its best-fit value: for five counts the best-fit value is 5, and 4 is more probable."
  },
  {
   "property": "C136",
   "status": "partial",
   "theorems": [
    "Elisa.Models.Catalogue.Off.C136_amplitude",
    "Elisa.Models.Catalogue.Off.C136_off",
    "Elisa.Models.Catalogue.Off.C136_absorbed",
    "Elisa.Models.Catalogue.Off.C136_shifted",
    "Elisa.Models.Catalogue.Off.C136_added_partial",
    "Elisa.Models.Catalogue.Off.C136_added_refuted"
   ],
   "note": "The property as stated is false of the code; refuted: [C136_added_refuted] (refuted: added components). With the declared bounds, adding a component can make the best fit worse: with no counts in the data, one thermal spectrum fits strictly better than two thermal spectra with any parameters, because no amplitude is below 1e-10. Proved part: [C136_added_partial] (adding a component). A model with a further additive component of the library, whose amplitude is multiplied by `t`, is the model plus `t` times the component, in every bin; so as the amplitude goes to zero, every continuous statistic goes to that of the model alone. `_partial`: the amplitude zero is not within the declared bounds, so the smaller model is a limit of the larger one and not a case of it; see `C136_added_refuted`."
  },
  {
   "property": "C137",
   "status": "partial",
   "theorems": [
    "Elisa.Data.Alias.C137_current_partial",
    "Elisa.Data.Alias.C137_taken",
    "Elisa.Data.Alias.C137_fit",
    "Elisa.Data.Alias.C137_spectrum",
    "Elisa.Data.Alias.C137_dataset",
    "Elisa.Data.Alias.C137_argument_refuted",
    "Elisa.Data.Alias.C137_restore_refuted",
    "Elisa.Data.Alias.C137_net_refuted"
   ],
   "note": "The property as stated is false of the code; refuted: [C137_argument_refuted] (refuted: the array given). `set_grouping` keeps the array it is given, and writes to it: an array of flags starting with -1 is changed, and when the user writes into it later, the data are grouped otherwise the next time the energy range is set. [C137_restore_refuted] (refuted: restoring). The flags a new data set shows are those of the spectrum itself: after the user has written into `data.grouping`, `set_grouping(None)` does not restore the flags the spectrum was made with, and another data set of the same spectrum is grouped otherwise the next time its energy range is set. [C137_net_refuted] (refuted: net counts). Without background, `net_counts` is `spec_counts`: writing into the one changes the other. Proved part: [C137_current_partial] (up to date). As long as the user writes into no array and asks for none, the grouped arrays of every data set are at all times those of its flags and energy ranges, computed from the values its spectrum, response and background have - also when one array of flags has been given to several data sets. `_partial`: false when arrays are written to, see `C137_argument_refuted`, `C137_restore_refuted`, `C137_net_refuted`."
  },
  {
   "property": "C138",
   "status": "proved",
   "theorems": [
    "Elisa.Infer.Stack.C138_stack",
    "Elisa.Infer.Stack.C138_best",
    "Elisa.Infer.Stack.C138_chi2",
    "Elisa.Infer.Stack.C138_wstat_differs"
   ],
   "note": ""
  },
  {
   "property": "C139",
   "status": "proved",
   "theorems": [
    "Elisa.Data.Units.C139_flags",
    "Elisa.Data.Units.C139_methods",
    "Elisa.Data.Units.C139_history",
    "Elisa.Data.Units.C139_made",
    "Elisa.Data.Units.C139_fit",
    "Elisa.Data.Units.C139_units"
   ],
   "note": ""
  },
  {
   "property": "C140",
   "status": "proved",
   "theorems": [
    "Elisa.Infer.Longer.C140_data",
    "Elisa.Infer.Longer.C140_likelihood",
    "Elisa.Infer.Longer.C140_statistic",
    "Elisa.Infer.Longer.C140_region",
    "Elisa.Infer.Longer.C140_longer"
   ],
   "note": ""
  },
  {
   "property": "C141",
   "status": "partial",
   "theorems": [
    "Elisa.Infer.Refine.C141_refine_partial",
    "Elisa.Infer.Refine.C141_components_partial",
    "Elisa.Infer.Refine.C141_broken_refuted",
    "Elisa.Infer.Refine.C141_numeric_refuted"
   ],
   "note": "The property as stated is false of the code; refuted: [C141_broken_refuted] splitting a bin that contains the break, with the response unchanged, changes the expected counts and with them the statistic: the bin counts wholly as below the break when its lower edge is. [C141_numeric_refuted] whichever way a bin is split, the exponential spectrum (a cut-off power law of index 0) gives fewer photons in the parts together than in the bin, so with the response unchanged there are fewer expected counts. Proved part: [C141_refine_partial] Splitting any bins of a response at any energies, all parts keeping the response of the bin, changes neither the expected counts nor the fitted background nor the log-likelihood of any channel, for every statistic and every model whose values are integrals over the bins (all fluxes in the numerical range of the program). Missing: models whose values are not integrals over the bins, see `C141_components_partial` and `C141_broken_refuted`. [C141_components_partial] The power law, its flux-normalised forms and the Lorentz line are such models, and so are sums, constant multiples and redshifted forms of such models. Missing: components that the program integrates numerically, and products with energy-dependent factors; their values for a bin are approximations that depend on the bin."
  },
  {
   "property": "C142",
   "status": "partial",
   "theorems": [
    "Elisa.Infer.Ignore.C142_flags_partial",
    "Elisa.Infer.Ignore.C142_group_partial",
    "Elisa.Infer.Ignore.C142_session_partial",
    "Elisa.Infer.Ignore.C142_statistic_partial",
    "Elisa.Infer.Ignore.C142_net_refuted"
   ],
   "note": "The property as stated is false of the code; refuted: [C142_net_refuted] for a spectrum without background whose net setting is left open (the default): a negative count in a good channel *outside* the energy range makes the whole spectrum a net spectrum and changes the area scale, hence the expected counts, inside the range. Proved part: [C142_flags_partial] Two observations that hold the same data in the good channels inside the energy ranges hand the same arrays to a fit, for all grouping flags, whatever the channels outside the ranges contain. [C142_group_partial] Two observations that hold the same data in the good channels inside the energy ranges are grouped alike by every method and scale: the same flags, the same success report and the same arrays for the fit, or the same exception, whatever the channels outside the ranges contain. [C142_session_partial] Whatever energy ranges, grouping flags and grouping methods a user asks for, in any order and number: if two data sets hold the same data in the good channels inside some range that was ever asked for (`R` holds at least the initial ranges and those of every call), then the same calls are accepted, and the fit receives the same data from both. Missing with respect to C142: the net setting left open without a background, see `C142_net_refuted`. [C142_statistic_partial] The statistic of a data set (every channel's contribution), for every statistic and every model, is the same for both data sets after the same calls."
  },
  {
   "property": "C143",
   "status": "partial",
   "theorems": [
    "Elisa.Infer.TestLevel.C143_level_partial",
    "Elisa.Infer.TestLevel.C143_exact",
    "Elisa.Infer.TestLevel.C143_level_refuted",
    "Elisa.Infer.TestLevel.C143_limit"
   ],
   "note": "The property as stated is false of the code; refuted: [C143_level_refuted] as stated: with independent draws from any distribution without atoms and any number of simulations, a p-value of 0 is reported for a correct model with probability `1 / (n + 1)`, so every test at a level below that rejects too often. Proved part: [C143_level_partial] If the model is correct, a test that rejects when the reported p-value is at most `\u03b1` rejects with probability at most `(\u230a\u03b1 n\u230b + 1) / (n + 1)`, hence at most `\u03b1 + 1 / (n + 1)`, `n` being the number of simulations - whatever the statistic and its distribution, ties included. Missing with respect to C143: the extra `1 / (n + 1)`, see `C143_level_refuted`."
  },
  {
   "property": "C144",
   "status": "proved",
   "theorems": [
    "Elisa.Grouping.Fl.C144_limit",
    "Elisa.Grouping.Fl.C144_group_min",
    "Elisa.Grouping.Fl.C144_group_opt",
    "Elisa.Grouping.Fl.C144_group_counts"
   ],
   "note": ""
  },
  {
   "property": "C145",
   "status": "proved",
   "theorems": [
    "Elisa.Grouping.Fl.C145_group_counts"
   ],
   "note": ""
  },
  {
   "property": "C146",
   "status": "partial",
   "theorems": [
    "Elisa.Infer.Fl.C146_wstat",
    "Elisa.Infer.Fl.C146_pgstat",
    "Elisa.Infer.Fl.C146_negative_refuted",
    "Elisa.Infer.Fl.C146_zero_refuted"
   ],
   "note": "The property as stated is false of the code; refuted: [C146_negative_refuted] A background rate below zero is reached, in every round-to-nearest arithmetic: no counts in the background region, 7 counts in the source region, ratio 1/4 and the expected source counts `1.4000000000000001`. (Simulating data from such a rate raises an error in numpy.) [C146_zero_refuted] A background rate of zero is reached although a background count was observed (the logarithm in the statistic is then minus infinity), for a ratio of `2 ^ -10` and `2 ^ 49` expected source counts; the exact profile background is positive there."
  },
  {
   "property": "C147",
   "status": "proved",
   "theorems": [
    "Elisa.Infer.Fl.C147_counts",
    "Elisa.Infer.Fl.C147_sparse"
   ],
   "note": ""
  },
  {
   "property": "C148",
   "status": "partial",
   "theorems": [
    "Elisa.Models.Catalogue.Doc.C148_rule_partial",
    "Elisa.Models.Catalogue.Doc.C148_exact_partial",
    "Elisa.Models.Catalogue.Doc.C148_photon",
    "Elisa.Models.Catalogue.Doc.C148_smooth",
    "Elisa.Models.Catalogue.Doc.C148_broken",
    "Elisa.Models.Catalogue.Doc.C148_refuted"
   ],
   "note": "The property as stated is false of the code; refuted: [C148_refuted] As created, with all parameters at their defaults, `BrokenPL` holds a fifth of the documented photons in every bin below its break and `SmoothlyBrokenPL` at least twenty times the documented ones in every bin; a Band function with equal indices, which the bounds allow, is not the documented power law. Proved part: [C148_rule_partial] With parameters inside the declared bounds, every bin of a numerically integrated component holds the trapezoidal rule, or Simpson's, for the documented formula. `_partial`: not where the code puts something else in the place of the formula (`Covered`: Band functions with nearly equal indices, black bodies far from their temperature), where the formula is no number (`Regular`), and not for `SmoothlyBrokenPL` (`C148_refuted`). [C148_exact_partial] With parameters inside the declared bounds, every bin of an analytically integrated component is the exact integral (the exact mean, for a multiplicative component) of the documented formula over the bin. `_partial`: not for the index 1 of `PLAbs` (`Regular`), and not for `BrokenPL` (`C148_refuted`)."
  },
  {
   "property": "C149",
   "status": "proved",
   "theorems": [
    "Elisa.Infer.Fl.C149_channel",
    "Elisa.Infer.Fl.C149_perfect",
    "Elisa.Infer.Fl.C149_practice",
    "Elisa.Infer.Fl.C149_statistic"
   ],
   "note": ""
  },
  {
   "property": "C150",
   "status": "partial",
   "theorems": [
    "Elisa.Models.Fl.C150_error_partial",
    "Elisa.Models.Fl.C150_practice",
    "Elisa.Models.Fl.C150_one",
    "Elisa.Models.Fl.C150_nonneg",
    "Elisa.Models.Fl.C150_refuted"
   ],
   "note": "The property as stated is false of the code; refuted: [C150_refuted] For an index just above one a power law has no photons at all between 0.9 and 1.1 keV: every bin there is computed as zero, with a correctly rounded power and logarithm, although it holds more than half its width in photons. (A power law normalised to its flux in such a band is then infinite times zero.) Proved part: [C150_error_partial] For an index different from one, the computed photons of a bin are those of a power law whose index differs from the one asked for by rounding only, up to a relative error of `2 ^ -47` times `1 + 2 / (|1 - index| ln (b / a))`. Missing for the full property: the second factor is not bounded, it grows without limit as the index approaches one (see `C150_refuted`)."
  },
  {
   "property": "C151",
   "status": "partial",
   "theorems": [
    "Elisa.Grouping.Fl.C151_terms",
    "Elisa.Grouping.Fl.C151_error_partial",
    "Elisa.Grouping.Fl.C151_practice",
    "Elisa.Grouping.Fl.C151_grouping",
    "Elisa.Grouping.Fl.C151_refuted",
    "Elisa.Grouping.Fl.C151_grouping_refuted",
    "Elisa.Grouping.Fl.C151_grouping_computed",
    "Elisa.Grouping.Fl.C151_grouping_unit"
   ],
   "note": "The property as stated is false of the code; refuted: [C151_refuted] One count, with five counts in a background of five times the exposure, has significance zero. The code gives NaN for it, whatever the last bit of the logarithm. [C151_grouping_refuted] Two channels with 20 and 1 counts, 5 counts of background in each and five times the exposure, grouped to a significance of three: the last channel is below it and joins the first, which is a success. The code leaves it alone, because its significance is NaN, which is not below three, and reports failure. Proved part: [C151_error_partial] A significance whose square is at least `2 ^ -40` times the number of counts is computed: with the right sign, and its square with an error of at most `2 ^ -40` times the number of counts. Missing: the smaller significances, where the code can give NaN; see `C151_refuted`."
  },
  {
   "property": "C152",
   "status": "proved",
   "theorems": [
    "Elisa.Infer.Fl.C152_chi2",
    "Elisa.Infer.Fl.C152_known",
    "Elisa.Infer.Fl.C152_pstat"
   ],
   "note": ""
  },
  {
   "property": "C153",
   "status": "proved",
   "theorems": [
    "Elisa.Infer.Fl.C153_wstat"
   ],
   "note": ""
  },
  {
   "property": "C154",
   "status": "partial",
   "theorems": [
    "Elisa.Grouping.Fl.C154_error_partial",
    "Elisa.Grouping.Fl.C154_practice",
    "Elisa.Grouping.Fl.C154_rounded_grouping",
    "Elisa.Grouping.Fl.C154_exact",
    "Elisa.Grouping.Fl.C154_zero_refuted",
    "Elisa.Grouping.Fl.C154_grouping",
    "Elisa.Grouping.Fl.C154_grouping_refuted",
    "Elisa.Grouping.Fl.C154_refuted",
    "Elisa.Grouping.Fl.C154_deficit_refuted",
    "Elisa.Grouping.Fl.C154_infinite_refuted",
    "Elisa.Grouping.Fl.C154_equality_refuted",
    "Elisa.Grouping.Fl.C154_last_refuted"
   ],
   "note": "The property as stated is false of the code; refuted: [C154_zero_refuted] Without rounding: an uncertainty of zero, which is accepted, gives NaN over every background that is not negative, whatever the counts, and an infinite significance over every negative one. [C154_grouping_refuted] Without rounding: two channels of a thousand counts each, over a background of zero with an uncertainty of zero, are not two groups but one, and the grouping reports failure. [C154_refuted] Three counts over a background of three, with an uncertainty of 3.8, have significance zero. The code gives NaN for it, whatever the last bit of the logarithm. [C154_deficit_refuted] No counts over a background of 43 counts with the uncertainty of counts, its square root, is a deficit of more than six standard deviations. The code gives NaN for it. [C154_infinite_refuted] One count over a background of zero with an uncertainty of 3 * 2^27 has a significance between zero and 2^-28. The code gives infinity, which reaches every threshold. [C154_equality_refuted] One count over a background of one count has significance zero, and one count over a background of two has a negative one; with an uncertainty of 3 * 2^27 the code gives plus infinity for the first, which reaches every threshold, and minus infinity for the second. [C154_last_refuted] Without rounding: the first of two channels reaches the threshold, the last one has an uncertainty of zero. Its significance is undefined, so it is not joined to the group before, as a last channel below the threshold is, but stays a group of its own that fails the final test. Proved part: [C154_error_partial] Where the variance of the scaled background is at most half of it (and not `2 ^ 40` times smaller), a significance whose square is at least `2 ^ -40` times the number of expected and observed counts is computed: finite, with the right sign, and its square with an error of at most `2 ^ -40` times that number; the uncertainty `s'` given to the code may differ from `s` in its last place. Missing: the smaller significances, where the code can give NaN, and the wider backgrounds, where the profile background is lost; see `C154_refuted` and `C154_infinite_refuted`."
  },
  {
   "property": "C155",
   "status": "proved",
   "theorems": [
    "Elisa.Infer.Fl.C155_pgstat",
    "Elisa.Infer.Fl.C155_loss",
    "Elisa.Infer.Fl.C155_practice"
   ],
   "note": ""
  },
  {
   "property": "C156",
   "status": "partial",
   "theorems": [
    "Elisa.Grouping.Fl.C156_grouping_partial",
    "Elisa.Grouping.Fl.C156_poisson_refuted",
    "Elisa.Grouping.Fl.C156_grouping_refuted",
    "Elisa.Grouping.Fl.C156_refuses"
   ],
   "note": "The property as stated is false of the code; refuted: [C156_poisson_refuted] Channels with 1, 8 and 9 counts whose errors are the square roots of the counts, grouped to a significance of 3 (that is, 9 counts): exactly, the first two channels have a significance of 3 and are a group, and so is the third. In float64 the computed variance of the first two is `9 + 2 ^ -49`, so they are not, and all three channels end up in one group. [C156_grouping_refuted] Three channels: exactly, the first two together are less significant than one standard deviation and all three are one group; in float64 the first two are a group of their own. Proved part: [C156_grouping_partial] If no interval of channels has a significance within rounding of the threshold, then the grouping computed in float64, in whatever order NumPy adds, and the reported success are those of exact arithmetic (so C05 says what they are). The counts are any numbers of the format up to `2 ^ 900`, the errors are zero or between `2 ^ -300` and `2 ^ 300`, the threshold is between `2 ^ -30` and `2 ^ 30`. What is missing: intervals at the threshold, see the counterexamples below."
  },
  {
   "property": "C157",
   "status": "partial",
   "theorems": [
    "Elisa.Grouping.Fl.C157_zeros",
    "Elisa.Grouping.Fl.C157_interval_error_partial",
    "Elisa.Grouping.Fl.C157_whole",
    "Elisa.Grouping.Fl.C157_unit_ratio",
    "Elisa.Grouping.Fl.C157_refuted",
    "Elisa.Grouping.Fl.C157_ratio",
    "Elisa.Grouping.Fl.C157_scale_partial",
    "Elisa.Grouping.Fl.C157_gv_partial"
   ],
   "note": "The property as stated is false of the code; refuted: [C157_refuted] Two channels, the background of the second is 1 \u00b1 1, that of the first has an uncertainty of 3 * 2 ^ 26. A hundred counts in the second channel have a significance above 10. The variance of the second channel alone, computed as a difference of prefix sums, is zero, and the significance is NaN. Proved part: [C157_interval_error_partial] The sum over an interval of channels, the difference of two computed prefix sums, has an error of at most a few units of `2 ^ -52` (three plus the number of channels in the interval) of the sum of the absolute values of all channels *up to the end of the interval*. What is missing: an error relative to the channels in the interval, see the counterexample below. [C157_scale_partial] An interval of channels with counts, whole numbers up to 2^53 in all: the scale factor of the interval (the mean weighted with the counts) is computed with a relative error of at most 2^-52 plus twice that of the sum of `counts / scale` over the interval, which C157_interval_error bounds by a few units of 2^-52 of the same sum up to the end of the interval. What is missing: intervals with few of the counts, for which this error is larger than a quarter, see the counterexample of C157. [C157_gv_partial] The counts, background and error the code uses for an interval of channels when it groups by the significance over a Gaussian background: the counts, whole numbers, are those of the interval; the background is that of the interval up to a few units of `2 ^ -52` of the backgrounds up to the end of the interval; and the error is the rounded square root of the variance of the interval up to a few units of `2 ^ -52` of the variances up to the end of the interval. What is missing: errors relative to the interval, see the counterexample of C157."
  },
  {
   "property": "C158",
   "status": "partial",
   "theorems": [
    "Elisa.Grouping.Fl.C158_grouping_partial",
    "Elisa.Grouping.Fl.C158_grouping_refuted",
    "Elisa.Grouping.Fl.C158_refuses"
   ],
   "note": "The property as stated is false of the code; refuted: [C158_grouping_refuted] Three channels, the optimal width at the first is two channels: exactly, the first two together are less significant than one standard deviation, the bin is extended and all three are one group; in float64 the first two are a group of their own. Proved part: [C158_grouping_partial] If no interval of channels, and no bin extended beyond its optimal width, has a significance within rounding of the threshold, then the optimal grouping with a minimum significance computed in float64, in whatever order NumPy adds, and the reported success are those of exact arithmetic (so C06 says what they are). The counts are any numbers of the format up to `2 ^ 900`, the errors are zero or between `2 ^ -300` and `2 ^ 300`, the threshold is between `2 ^ -30` and `2 ^ 30`. What is missing: bins at the threshold, see the counterexample below."
  },
  {
   "property": "C159",
   "status": "partial",
   "theorems": [
    "Elisa.Grouping.Fl.C159_lima_partial",
    "Elisa.Grouping.Fl.C159_gv_partial",
    "Elisa.Grouping.Fl.C159_gv_refuted",
    "Elisa.Grouping.Fl.C159_lima_refuses",
    "Elisa.Grouping.Fl.C159_gv_refuses",
    "Elisa.Grouping.Fl.C159_lima_computed_partial",
    "Elisa.Grouping.Fl.C159_lima_unit_partial"
   ],
   "note": "The property as stated is false of the code; refuted: [C159_gv_refuted] Two channels with one count each over a background of zero with an uncertainty of 3 * 2^27, at a threshold of three: in double precision every channel is a group and success is reported; the significance of each is at most 2^-28, and exactly the two channels are one group. Proved part: [C159_lima_partial] If the wanted significance is above one and no interval of channels has a significance within one millionth of it, then the optimal grouping by Li-Ma significance in double precision, for at most a million counts, is the exact one, and so is the reported success (C06 says what they are). Unlike in C151, channels with a significance of zero do not matter: this loop treats a NaN as too low. What is missing: intervals within one millionth of the threshold. [C159_gv_partial] If the wanted significance is above one, no interval of channels has a significance within one millionth of it, and the variance of the scaled background of every interval is at most half of it, then the optimal grouping by significance over a Gaussian background in double precision is the exact one, and so is the reported success. What is missing: intervals within one millionth of the threshold, and wider backgrounds, see the counterexample below. [C159_lima_computed_partial] The same with the ratio of every interval as the code computes it, if that has a relative error of at most `5e-14` (C157 says when): if the wanted significance is above one and no interval of channels has a significance within two millionths of it, the optimal grouping is the exact one. What is missing: intervals within two millionths of the threshold. [C159_lima_unit_partial] Without area and background scale factors, and with exposures whose ratio is between `2 ^ -30` and `2 ^ 30`, the ratio needs no further condition: at most a million counts, a wanted significance above one, and no interval of channels within two millionths of it, and the optimal grouping with the ratios as the code computes them is the exact one. What is missing: intervals within two millionths of the threshold."
  },
  {
   "property": "C160",
   "status": "partial",
   "theorems": [
    "Elisa.Data.C160_values",
    "Elisa.Data.C160_resets",
    "Elisa.Data.C160_systematics",
    "Elisa.Data.C160_integer_partial",
    "Elisa.Data.C160_zero_partial",
    "Elisa.Data.C160_once",
    "Elisa.Data.C160_integer_refuted",
    "Elisa.Data.C160_zero_refuted",
    "Elisa.Data.C160_file",
    "Elisa.Data.C160_keyword_refuted"
   ],
   "note": "The property as stated is false of the code; refuted: [C160_integer_refuted] A Poisson spectrum with 10^9 + 1/2 counts is accepted without any warning. [C160_zero_refuted] The user is warned about zero errors although the only error of the spectrum is one. [C160_keyword_refuted] A systematic error given as a keyword of the header is ignored without a warning, whatever its value and the kind of spectrum. Proved part: [C160_integer_partial] The user is warned, unless the warning is switched off, exactly if the counts of a Poisson spectrum are farther from a whole number than 10^-8 of themselves. What is missing: counts that are closer, see the counterexample below. [C160_zero_partial] For a spectrum with Gaussian errors and the warning switched on: without the warning all stored errors are positive, and the warning means that a given error is zero. What is missing: the stored error may still be positive, see the counterexample below."
  },
  {
   "property": "C161",
   "status": "partial",
   "theorems": [
    "Elisa.Util.Replace.C161_one",
    "Elisa.Util.Replace.C161_empty",
    "Elisa.Util.Replace.C161_text_partial",
    "Elisa.Util.Replace.C161_text_refuted",
    "Elisa.Util.Replace.C161_lists",
    "Elisa.Util.Replace.C161_dict_partial",
    "Elisa.Util.Replace.C161_dict_refuted",
    "Elisa.Util.Replace.C161_last",
    "Elisa.Util.Replace.C161_absent"
   ],
   "note": "The property as stated is false of the code; refuted: [C161_text_refuted] The replacements are made one after the other: with a to b and b to c, the string \"ab\" becomes \"cc\" instead of \"bc\". [C161_dict_refuted] Replacing a by b in a dictionary with the keys \"a\" and \"b\" gives one entry: the value of \"a\" is lost. Proved part: [C161_text_partial] If the keys are different characters that occur in no replacement, then every character is replaced once, as if all replacements were made at the same time. What is missing: replacements that contain keys, see the counterexample below, and longer keys. [C161_dict_partial] If the replaced keys of a dictionary are different, it keeps its entries in their order, with keys and values replaced. What is missing: keys that become equal, see the counterexample below."
  },
  {
   "property": "C162",
   "status": "partial",
   "theorems": [
    "Elisa.Grouping.Fl.C162_optsig_lima_partial",
    "Elisa.Grouping.Fl.C162_sig_lima_partial",
    "Elisa.Grouping.Fl.C162_optsig_gv_partial",
    "Elisa.Grouping.Fl.C162_sig_gv_partial",
    "Elisa.Grouping.Fl.C162_gv_refuted",
    "Elisa.Grouping.Fl.C162_refuses",
    "Elisa.Grouping.Fl.C162_optsig_lima_unit_partial",
    "Elisa.Grouping.Fl.C162_sig_lima_unit_partial"
   ],
   "note": "The property as stated is false of the code; refuted: [C162_gv_refuted] Two channels with one count each over a background of zero with an uncertainty of `3 * 2 ^ 27`, at a threshold of three, everything computed in double precision: every channel is a group and success is reported, while the significance of each is at most `2 ^ -28` and exactly the two channels are one group. Proved part: [C162_optsig_lima_partial] At most a million counts, ratios computed with a relative error of at most `5e-14` (C157 says when), a wanted significance above one, and no interval of channels with a significance within two millionths of it: the optimal grouping, everything computed in double precision, is the exact one, with the same report of success. What is missing: intervals within two millionths of the threshold. [C162_sig_lima_partial] The same for the grouping from low to high channels, if moreover no interval that ends at the last channel has a significance below two thousandths in size. [C162_optsig_gv_partial] No interval of channels has only a tiny share of the background, or of its variance, up to its end; the ratios are computed with a relative error of at most `\u03b4 \u2264 2e-13` (C157 says when); every interval is clear; the wanted significance is above one, and no interval has a significance within `1e-6 + 1.25e9 \u03b4` of it: the optimal grouping, everything computed in double precision, is the exact one, with the same report of success. What is missing: intervals close to the threshold, and wider backgrounds, see the counterexample of C159. [C162_sig_gv_partial] The same for the grouping from low to high channels, if moreover no interval that ends at the last channel has a significance below three hundredths in size. [C162_optsig_lima_unit_partial] With all scale factors one, nothing has to be assumed about computed numbers: at most a million counts, a wanted significance above one, and no interval of channels with a significance within two millionths of it, for the ratio of the exposures; then the optimal grouping, everything computed in double precision, is the exact one, with the same report of success. What is missing: intervals within two millionths of the threshold. [C162_sig_lima_unit_partial] The same for the grouping from low to high channels, if moreover no interval that ends at the last channel has a significance below two thousandths in size."
  }
 ]
}
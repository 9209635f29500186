# Axioms of the property theorems

Generated by tools/axioms.sh.

- `Elisa.Grouping.C01_group_min`: propext, Classical.choice, Quot.sound
- `Elisa.Grouping.C01_rejects`: propext, Quot.sound
- `Elisa.Grouping.C02_group_const_partial`: propext, Classical.choice, Quot.sound
- `Elisa.Grouping.C02_short_segment_refuted`: propext, Quot.sound
- `Elisa.Grouping.C03_more_counts`: propext, Classical.choice, Quot.sound
- `Elisa.Grouping.C03_width_total`: propext, Classical.choice, Quot.sound
- `Elisa.Grouping.C03_optimal_width`: propext, Classical.choice, Quot.sound
- `Elisa.Grouping.C03_group_within_resolution`: propext, Classical.choice, Quot.sound
- `Elisa.Grouping.KB.C03_formula`: propext, Classical.choice, Quot.sound
- `Elisa.Grouping.KB.C03_factor`: propext, Classical.choice, Quot.sound
- `Elisa.Grouping.C03_group_opt`: propext, Classical.choice, Quot.sound
- `Elisa.Grouping.C04_group_optmin`: propext, Classical.choice, Quot.sound
- `Elisa.Grouping.C05_group_sig_lima`: propext, Classical.choice, Quot.sound
- `Elisa.Grouping.C05_group_sig_gv`: propext, Classical.choice, Quot.sound
- `Elisa.Grouping.C05_group_sig_normal`: propext, Classical.choice, Quot.sound
- `Elisa.Grouping.C05_rejects`: propext, Classical.choice, Quot.sound
- `Elisa.Grouping.C06_group_optsig_lima`: propext, Classical.choice, Quot.sound
- `Elisa.Grouping.C06_group_optsig_gv`: propext, Classical.choice, Quot.sound
- `Elisa.Grouping.C06_group_optsig_normal_partial`: propext, Classical.choice, Quot.sound
- `Elisa.Grouping.C06_optsig_normal_refuted`: propext, Classical.choice, Quot.sound
- `Elisa.Grouping.C07_regroup`: propext, Classical.choice, Quot.sound
- `Elisa.Grouping.C08_interval_ratio`: propext, Classical.choice, Quot.sound
- `Elisa.Grouping.C09_group_scale`: propext, Classical.choice, Quot.sound
- `Elisa.Grouping.C09_rejects`: propext, Quot.sound
- `Elisa.Grouping.C09_scale_between`: propext, Classical.choice, Quot.sound
- `Elisa.Grouping.C09_scaled_counts`: propext, Classical.choice, Quot.sound
- `Elisa.Grouping.C10_lima`: propext, Classical.choice, Quot.sound
- `Elisa.Grouping.C10_lima_likelihood_ratio`: propext, Classical.choice, Quot.sound
- `Elisa.Grouping.C11_profile`: propext, Classical.choice, Quot.sound
- `Elisa.Grouping.C11_gv`: propext, Classical.choice, Quot.sound
- `Elisa.Data.C12_conserves`: propext, Classical.choice, Quot.sound
- `Elisa.Data.C12_noticed_total`: propext, Classical.choice, Quot.sound
- `Elisa.Data.C13_auto_net_refuted`: propext, Classical.choice, Quot.sound
- `Elisa.Data.C13_bad_channels_ignored_partial`: propext, Classical.choice, Quot.sound
- `Elisa.Data.C13_no_good_channel_excluded`: propext, Classical.choice, Quot.sound
- `Elisa.Data.C14_noticed`: propext, Classical.choice, Quot.sound
- `Elisa.Data.C14_restore_and_reject`: propext, Classical.choice, Quot.sound
- `Elisa.Data.C15_set_erange`: propext, Classical.choice, Quot.sound
- `Elisa.Data.C15_history`: propext, Classical.choice, Quot.sound
- `Elisa.Data.C16_net_spectrum`: propext, Classical.choice, Quot.sound
- `Elisa.Data.C17_bad_channel_refuted`: propext, Classical.choice, Quot.sound
- `Elisa.Data.C17_preserve_refuted`: propext, Classical.choice, Quot.sound
- `Elisa.Data.C17_fractional_scale_refuted`: propext, Classical.choice, Quot.sound
- `Elisa.Data.C17_varying_ratio_refuted`: propext, Classical.choice, Quot.sound
- `Elisa.Data.C17_group_partial`: propext, Classical.choice, Quot.sound
- `Elisa.Data.C17_arguments`: propext, Classical.choice, Quot.sound
- `Elisa.Data.C17_min_partial`: propext, Classical.choice, Quot.sound
- `Elisa.Data.C18_fold_commutes`: propext, Classical.choice, Quot.sound
- `Elisa.Data.C19_systematics_refuted`: propext, Classical.choice, Quot.sound
- `Elisa.Data.C19_statistical_partial`: propext, Classical.choice, Quot.sound
- `Elisa.Data.C19_keyword_refuted`: propext, Classical.choice, Quot.sound
- `Elisa.Data.C20_decode`: propext, Classical.choice, Quot.sound
- `Elisa.Data.C20_encodable`: propext, Classical.choice, Quot.sound
- `Elisa.Data.C20_truncated`: propext, Classical.choice, Quot.sound
- `Elisa.Data.C20_arf`: propext, Classical.choice, Quot.sound
- `Elisa.Data.C20_refused`: propext, Classical.choice, Quot.sound
- `Elisa.Data.C21_spectrum`: propext, Classical.choice, Quot.sound
- `Elisa.Data.C21_observation`: propext, Classical.choice, Quot.sound
- `Elisa.Data.C21_response`: propext, Classical.choice, Quot.sound
- `Elisa.Data.C21_spectrum_scales`: propext, Classical.choice, Quot.sound
- `Elisa.Infer.C22_wstat_background`: propext, Classical.choice, Quot.sound
- `Elisa.Infer.C22_wstat_domain`: propext, Classical.choice, Quot.sound
- `Elisa.Infer.C23_pgstat_background`: propext, Classical.choice, Quot.sound
- `Elisa.Infer.C24_poisson`: propext, Classical.choice, Quot.sound
- `Elisa.Infer.C25_channel_deviance`: propext, Classical.choice, Quot.sound
- `Elisa.Infer.C25_total_deviance`: propext, Classical.choice, Quot.sound
- `Elisa.Infer.C25_fit`: propext, Classical.choice, Quot.sound
- `Elisa.Infer.C25_domain`: propext, Classical.choice, Quot.sound
- `Elisa.Infer.C25_missing_background`: propext, Classical.choice, Quot.sound
- `Elisa.Models.C26_free_inside_partial`: propext, Classical.choice, Quot.sound
- `Elisa.Models.C26_closed_bounds`: propext, Classical.choice, Quot.sound
- `Elisa.Models.C26_restored`: propext, Classical.choice, Quot.sound
- `Elisa.Models.C26_prior`: propext, Classical.choice, Quot.sound
- `Elisa.Models.C26_support`: none
- `Elisa.Models.C26_bound_on_default_refuted`: propext, Classical.choice, Quot.sound
- `Elisa.Models.C26_log_refuted`: propext, Classical.choice, Quot.sound
- `Elisa.Models.C26_nan_refuted`: propext, Classical.choice, Quot.sound
- `Elisa.Models.C26_infinite_bound_refuted`: propext, Classical.choice, Quot.sound
- `Elisa.Models.C26_rounding_refuted`: propext, Classical.choice, Quot.sound
- `Elisa.Models.C27_rejected_partial`: propext, Classical.choice, Quot.sound
- `Elisa.Models.C27_fixed_fails_only_log`: propext, Classical.choice, Quot.sound
- `Elisa.Models.C27_fixed_refuted`: propext, Classical.choice, Quot.sound
- `Elisa.Models.Track.C28_mirror_partial`: propext, Classical.choice, Quot.sound
- `Elisa.Models.Track.C28_listed_once`: propext, Quot.sound
- `Elisa.Models.Track.C28_never_raises`: propext, Classical.choice, Quot.sound
- `Elisa.Models.Track.C28_named_slot`: propext, Classical.choice, Quot.sound
- `Elisa.Models.Track.C28_address_reuse_refuted`: propext, Classical.choice, Quot.sound
- `Elisa.Models.Label.C29_label_denotes_value`: propext, Classical.choice, Quot.sound
- `Elisa.Models.Label.C29_text`: propext, Classical.choice, Quot.sound
- `Elisa.Models.Info.C30_slot_value`: propext, Classical.choice, Quot.sound
- `Elisa.Models.Info.C30_mutation_independent`: propext, Classical.choice, Quot.sound
- `Elisa.Models.Algebra.C31_accepted`: propext
- `Elisa.Models.Algebra.C31_value`: propext, Quot.sound
- `Elisa.Models.Algebra.C31_comps_once`: propext, Quot.sound
- `Elisa.Models.Algebra.C31_missing`: propext, Quot.sound
- `Elisa.Models.Algebra.C32_parts_are_additive`: propext, Classical.choice, Quot.sound
- `Elisa.Models.Algebra.C32_parts_sum_partial`: propext, Quot.sound
- `Elisa.Models.Algebra.C32_number_of_parts`: propext, Quot.sound
- `Elisa.Models.Algebra.C32_repeated_refuted`: propext, Classical.choice, Quot.sound
- `Elisa.Models.Algebra.C32_flux_convolution_refuted`: propext, Classical.choice, Quot.sound
- `Elisa.Models.Info.C33_positional_keyword_partial`: propext, Classical.choice, Quot.sound
- `Elisa.Models.Info.C33_mapping`: propext, Classical.choice, Quot.sound
- `Elisa.Models.Info.C33_default`: propext, Classical.choice, Quot.sound
- `Elisa.Models.Info.C33_shared_refuted`: propext, Classical.choice, Quot.sound
- `Elisa.Models.Info.C33_order`: propext, Classical.choice, Quot.sound
- `Elisa.Util.Names.C34_shape`: propext, Classical.choice, Quot.sound
- `Elisa.Util.Names.C34_distinct_partial`: propext, Classical.choice, Quot.sound
- `Elisa.Util.Names.C34_distinct_refuted`: propext
- `Elisa.Util.Names.C34_fit_names_partial`: propext, Classical.choice, Quot.sound
- `Elisa.Models.Spectra.C35_partition`: propext, Classical.choice, Quot.sound
- `Elisa.Models.Spectra.C35_flux`: propext, Classical.choice, Quot.sound
- `Elisa.Models.Spectra.C35_adjacent_bands`: propext, Classical.choice, Quot.sound
- `Elisa.Models.Spectra.C35_partition_lorentz`: propext, Classical.choice, Quot.sound
- `Elisa.Models.Spectra.C36_exact`: propext, Classical.choice, Quot.sound
- `Elisa.Models.Spectra.C37_up_to_scale_partial`: propext, Classical.choice, Quot.sound
- `Elisa.Models.Spectra.C37_scale_refuted`: propext, Classical.choice, Quot.sound
- `Elisa.Models.Spectra.C37_break_bin_refuted`: propext, Classical.choice, Quot.sound
- `Elisa.Models.Spectra.C38_photon`: propext, Classical.choice, Quot.sound
- `Elisa.Models.Spectra.C38_photon_flux`: propext, Classical.choice, Quot.sound
- `Elisa.Models.Spectra.C38_energy`: propext, Classical.choice, Quot.sound
- `Elisa.Models.Spectra.C39_documented_partial`: propext, Classical.choice, Quot.sound
- `Elisa.Models.Spectra.C39_continuous_partial`: propext, Classical.choice, Quot.sound
- `Elisa.Models.Spectra.C39_discontinuous_refuted`: propext, Classical.choice, Quot.sound
- `Elisa.Models.Spectra.C39_bandEp_eq_band_partial`: propext, Classical.choice, Quot.sound
- `Elisa.Models.Spectra.C39_bandEp_refuted`: propext, Classical.choice, Quot.sound
- `Elisa.Models.Spectra.C39_bandEp_eq_band`: propext, Classical.choice, Quot.sound
- `Elisa.Models.Spectra.C39_peak`: propext, Classical.choice, Quot.sound
- `Elisa.Models.Spectra.C39_compt_peak`: propext, Classical.choice, Quot.sound
- `Elisa.Models.Spectra.C40_compose`: propext, Classical.choice, Quot.sound
- `Elisa.Models.Spectra.C40_identity`: propext, Classical.choice, Quot.sound
- `Elisa.Models.Spectra.C40_commute`: propext, Classical.choice, Quot.sound
- `Elisa.Models.Spectra.C40_inverse`: propext, Classical.choice, Quot.sound
- `Elisa.Models.Spectra.C40_velocity_compose`: propext, Classical.choice, Quot.sound
- `Elisa.Models.Spectra.C40_spectrum`: propext, Classical.choice, Quot.sound
- `Elisa.Models.Spectra.C40_factor`: propext, Classical.choice, Quot.sound
- `Elisa.Models.Spectra.C40_photon_flux`: propext, Classical.choice, Quot.sound
- `Elisa.Models.Spectra.C40_energy_flux`: propext, Classical.choice, Quot.sound
- `Elisa.Models.Spectra.C41_photon`: propext, Classical.choice, Quot.sound
- `Elisa.Models.Spectra.C41_photon_reported`: propext, Classical.choice, Quot.sound
- `Elisa.Models.Spectra.C41_energy_reported`: propext, Classical.choice, Quot.sound
- `Elisa.Models.Spectra.C41_scale_invariant`: propext, Classical.choice, Quot.sound
- `Elisa.Models.Spectra.C41_shape`: propext, Classical.choice, Quot.sound
- `Elisa.Models.Spectra.C42_trapz_grid_error`: propext, Classical.choice, Quot.sound
- `Elisa.Models.Spectra.C42_trapz_linear`: propext, Classical.choice, Quot.sound
- `Elisa.Models.Spectra.C42_simpson_cubic`: propext, Classical.choice, Quot.sound
- `Elisa.Models.Spectra.C42_trapz_average`: propext, Classical.choice, Quot.sound
- `Elisa.Models.Spectra.C42_simpson_average`: propext, Classical.choice, Quot.sound
- `Elisa.Models.Spectra.C42_constant`: propext, Classical.choice, Quot.sound
- `Elisa.Models.Spectra.C42_linear`: propext, Classical.choice, Quot.sound
- `Elisa.Models.Spectra.C42_nonneg`: propext, Classical.choice, Quot.sound
- `Elisa.Models.Spectra.C42_bounded`: propext, Classical.choice, Quot.sound
- `Elisa.Models.Spectra.C42_trapz_error`: propext, Classical.choice, Quot.sound
- `Elisa.Infer.C43_check`: propext, Classical.choice, Quot.sound
- `Elisa.Infer.C43_default`: propext, Classical.choice, Quot.sound
- `Elisa.Infer.C43_incompatible`: propext, Classical.choice, Quot.sound
- `Elisa.Infer.C43_accepted_usable`: propext, Classical.choice, Quot.sound
- `Elisa.Infer.C43_refused`: propext, Classical.choice, Quot.sound
- `Elisa.Infer.C44_parse_input`: propext, Classical.choice, Quot.sound
- `Elisa.Infer.C44_no_repeated_data`: propext, Classical.choice, Quot.sound
- `Elisa.Infer.C44_stat_names`: propext
- `Elisa.Infer.C45_dof`: propext, Classical.choice, Quot.sound
- `Elisa.Infer.C45_ic_partial`: propext, Classical.choice, Quot.sound
- `Elisa.Infer.C45_aic_refuted`: propext, Classical.choice, Quot.sound
- `Elisa.Infer.C45_aic_negative_refuted`: propext, Classical.choice, Quot.sound
- `Elisa.Infer.C46_parallel_batch`: propext, Classical.choice, Quot.sound
- `Elisa.Infer.C46_row`: propext, Quot.sound
- `Elisa.Infer.C46_run_size`: propext, Quot.sound
- `Elisa.Infer.C46_boot`: propext, Classical.choice, Quot.sound
- `Elisa.Infer.C46_boot_single`: propext, Classical.choice, Quot.sound
- `Elisa.Infer.C46_ppc`: propext, Classical.choice, Quot.sound
- `Elisa.Util.C47_progress_partial`: propext, Classical.choice, Quot.sound
- `Elisa.Util.C47_refuses`: propext, Quot.sound
- `Elisa.Util.C47_terminates`: propext, Quot.sound
- `Elisa.Util.C47_progress_refuted`: propext, Quot.sound
- `Elisa.Infer.C48_level`: propext, Classical.choice, Quot.sound
- `Elisa.Infer.C48_level_twice_refuted`: propext, Classical.choice, Quot.sound
- `Elisa.Infer.C48_quantile`: propext, Classical.choice, Quot.sound
- `Elisa.Infer.C48_interval`: propext, Classical.choice, Quot.sound
- `Elisa.Infer.C49_p_value`: propext, Classical.choice, Quot.sound
- `Elisa.Infer.C49_no_samples`: propext, Classical.choice, Quot.sound
- `Elisa.Infer.C50_free_names`: propext, Classical.choice, Quot.sound
- `Elisa.Infer.C50_array_roundtrip`: propext, Classical.choice, Quot.sound
- `Elisa.Infer.C50_mapping_roundtrip`: propext, Classical.choice, Quot.sound
- `Elisa.Infer.C51_selection`: propext, Classical.choice, Quot.sound
- `Elisa.Infer.C51_order_irrelevant`: propext, Classical.choice, Quot.sound
- `Elisa.Infer.C52_sampling_partial`: propext, Classical.choice, Quot.sound
- `Elisa.Infer.C52_chi2_no_background`: propext, Classical.choice, Quot.sound
- `Elisa.Infer.C52_chi2_refuted`: propext, Classical.choice, Quot.sound
- `Elisa.Plot.C53_poisson`: propext, Classical.choice, Quot.sound
- `Elisa.Plot.C53_pair`: propext, Classical.choice, Quot.sound
- `Elisa.Plot.C53_pair_normal`: propext, Classical.choice, Quot.sound
- `Elisa.Plot.C53_default_dof_refuted`: propext, Classical.choice, Quot.sound
- `Elisa.Plot.C53_fit`: propext, Classical.choice, Quot.sound
- `Elisa.Plot.C53_pearson_partial`: propext, Classical.choice, Quot.sound
- `Elisa.Plot.C53_pearson_refuted`: propext, Classical.choice, Quot.sound
- `Elisa.Util.C54_get_parallel_number`: propext, Quot.sound
- `Elisa.Util.C54_set_cpu_cores_partial`: propext, Classical.choice, Quot.sound
- `Elisa.Util.C54_set_cpu_cores_refuted`: propext, Classical.choice, Quot.sound
- `Elisa.Util.C54_enable_x64_refuted`: none
- `Elisa.Models.Spectra.C55_exact`: propext, Classical.choice, Quot.sound
- `Elisa.Models.Spectra.C55_normalised`: propext, Classical.choice, Quot.sound
- `Elisa.Infer.C56_net_centred_partial`: propext, Classical.choice, Quot.sound
- `Elisa.Infer.C56_pstat_refuted`: propext, Classical.choice, Quot.sound
- `Elisa.Plot.C57_poisson`: propext, Classical.choice, Quot.sound
- `Elisa.Plot.C57_gauss`: propext, Classical.choice, Quot.sound
- `Elisa.Plot.C57_share`: propext, Classical.choice, Quot.sound
- `Elisa.Plot.C57_wstat_lower_refuted`: propext, Classical.choice, Quot.sound
- `Elisa.Plot.C57_pit`: propext, Classical.choice, Quot.sound
- `Elisa.Plot.C57_limits`: propext, Classical.choice, Quot.sound
- `Elisa.Plot.C57_function_flags_refuted`: propext, Classical.choice, Quot.sound
- `Elisa.Data.C58_spectrum`: propext, Classical.choice, Quot.sound
- `Elisa.Data.C59_name`: propext, Classical.choice, Quot.sound
- `Elisa.Data.C60_photon_grid`: propext, Classical.choice, Quot.sound
- `Elisa.Infer.C60_gap_refuted`: propext, Classical.choice, Quot.sound
- `Elisa.Models.Info.C61_mirror_from_history`: propext, Classical.choice, Quot.sound
- `Elisa.Models.Info.C61_free_parameters`: propext, Classical.choice, Quot.sound
- `Elisa.Models.Info.C61_setup`: propext, Classical.choice, Quot.sound
- `Elisa.Models.Info.C61_named`: propext, Classical.choice, Quot.sound
- `Elisa.Models.Spectra.C62_energy_flux_bound`: propext, Classical.choice, Quot.sound
- `Elisa.Models.Spectra.C62_powerlaw`: propext, Classical.choice, Quot.sound
- `Elisa.Models.Spectra.C63_luminosity`: propext, Classical.choice, Quot.sound
- `Elisa.Models.Spectra.C63_eiso`: propext, Classical.choice, Quot.sound
- `Elisa.Models.Spectra.C64_sbpl`: propext, Classical.choice, Quot.sound
- `Elisa.Models.Spectra.C64_sbpl_at_break`: propext, Classical.choice, Quot.sound
- `Elisa.Models.Spectra.C64_sbpl_doc_refuted`: propext, Classical.choice, Quot.sound
- `Elisa.Models.Spectra.C64_blackbody_exact`: propext, Classical.choice, Quot.sound
- `Elisa.Models.Spectra.C64_blackbody_low`: propext, Classical.choice, Quot.sound
- `Elisa.Models.Spectra.C64_blackbody_high`: propext, Classical.choice, Quot.sound
- `Elisa.Models.Spectra.C64_sbpl_doc_factor`: propext, Classical.choice, Quot.sound
- `Elisa.Models.Interval.C65_average`: propext, Classical.choice, Quot.sound
- `Elisa.Models.Interval.C65_documented`: propext, Classical.choice, Quot.sound
- `Elisa.Models.Interval.C65_order`: propext, Classical.choice, Quot.sound
- `Elisa.Models.Interval.C65_supplied_value_ignored`: propext, Classical.choice, Quot.sound
- `Elisa.Models.Interval.C65_independent`: propext, Classical.choice, Quot.sound
- `Elisa.Models.Interval.C65_orientation`: propext, Classical.choice, Quot.sound
- `Elisa.Models.Interval.C65_additive`: propext, Classical.choice, Quot.sound
- `Elisa.Models.Interval.C65_bounded`: propext, Classical.choice, Quot.sound
- `Elisa.Models.Interval.C65_empty_interval_refuted`: propext, Classical.choice, Quot.sound
- `Elisa.Models.Interval.C65_two_ends`: propext, Classical.choice, Quot.sound
- `Elisa.Models.Spectra.C66_transmissions`: propext, Classical.choice, Quot.sound
- `Elisa.Models.Spectra.C66_absorption_removes_photons`: propext, Classical.choice, Quot.sound
- `Elisa.Models.Spectra.C66_expfac`: propext, Classical.choice, Quot.sound
- `Elisa.Models.Spectra.C66_columns_add`: propext, Classical.choice, Quot.sound
- `Elisa.Models.Spectra.C66_highecut_starts_at_one`: propext, Classical.choice, Quot.sound
- `Elisa.Models.Spectra.C66_gaussian_line`: propext, Classical.choice, Quot.sound
- `Elisa.Models.Spectra.C66_constant`: propext, Classical.choice, Quot.sound
- `Elisa.Models.Spectra.C66_plabs_partial`: propext, Classical.choice, Quot.sound
- `Elisa.Models.Spectra.C66_plabs_index_one_refuted`: propext, Classical.choice, Quot.sound
- `Elisa.Models.Spectra.C66_cross_section_at_nodes`: propext, Classical.choice, Quot.sound
- `Elisa.Models.Spectra.C66_cross_section_between`: propext, Classical.choice, Quot.sound
- `Elisa.Plot.C67_constructor`: propext, Classical.choice, Quot.sound
- `Elisa.Plot.C67_transform`: propext, Classical.choice, Quot.sound
- `Elisa.Plot.C67_shape`: propext, Classical.choice, Quot.sound
- `Elisa.Plot.C67_get_scale`: propext, Classical.choice, Quot.sound
- `Elisa.Plot.C67_get_scale_total`: propext, Classical.choice, Quot.sound
- `Elisa.Plot.C67_decade_refuted`: propext, Classical.choice, Quot.sound
- `Elisa.Plot.C67_view_split`: propext, Classical.choice, Quot.sound
- `Elisa.Plot.C67_ticks`: propext, Classical.choice, Quot.sound
- `Elisa.Plot.C67_threshold_tick_missing`: propext, Classical.choice, Quot.sound
- `Elisa.Plot.C67_tick_space`: propext, Classical.choice, Quot.sound
- `Elisa.Plot.C68_value`: propext, Classical.choice, Quot.sound
- `Elisa.Plot.C68_bounds`: propext, Classical.choice, Quot.sound
- `Elisa.Plot.C68_linear`: propext, Classical.choice, Quot.sound
- `Elisa.Plot.C68_invariant`: propext, Classical.choice, Quot.sound
- `Elisa.Plot.C68_default_points`: propext, Classical.choice, Quot.sound
- `Elisa.Plot.C68_one_sigma_refuted`: propext, Classical.choice, Quot.sound
- `Elisa.Plot.C69_scale_color`: propext, Classical.choice, Quot.sound
- `Elisa.Plot.C69_identity`: propext, Classical.choice, Quot.sound
- `Elisa.Plot.C69_monotone`: propext, Classical.choice, Quot.sound
- `Elisa.Plot.C69_gradient`: propext, Classical.choice, Quot.sound
- `Elisa.Plot.C69_rejected`: propext, Classical.choice, Quot.sound
- `Elisa.Plot.C69_sign_accepted`: propext, Classical.choice, Quot.sound
- `Elisa.Plot.C69_channel`: propext, Quot.sound
- `Elisa.Util.C70_linear`: propext, Classical.choice, Quot.sound
- `Elisa.Util.C70_exact`: propext, Classical.choice, Quot.sound
- `Elisa.Util.C70_central_error`: propext, Classical.choice, Quot.sound
- `Elisa.Util.C70_forward_error`: propext, Classical.choice, Quot.sound
- `Elisa.Util.C70_methods`: propext, Classical.choice, Quot.sound
- `Elisa.Util.C70_method_partial`: propext
- `Elisa.Util.C70_method_refuted`: propext, Quot.sound
- `Elisa.Infer.C71_prior`: propext, Classical.choice, Quot.sound
- `Elisa.Infer.C71_log_uniform`: propext, Classical.choice, Quot.sound
- `Elisa.Infer.C71_default_prior`: propext, Classical.choice, Quot.sound
- `Elisa.Infer.C71_evidence_partial`: propext, Classical.choice, Quot.sound
- `Elisa.Infer.C71_discrete_refuted`: propext, Classical.choice, Quot.sound
- `Elisa.Infer.C71_ultranest_labels_refuted`: propext, Classical.choice, Quot.sound
- `Elisa.Infer.C72_draws`: propext, Classical.choice, Quot.sound
- `Elisa.Infer.C72_listener`: propext, Classical.choice, Quot.sound
- `Elisa.Infer.C72_listener_refuted`: propext, Quot.sound
- `Elisa.Infer.C72_start_method`: propext
- `Elisa.Infer.C72_start_method_refuted`: propext
- `Elisa.Infer.C72_resume`: propext, Classical.choice, Quot.sound
- `Elisa.Infer.C72_seeds`: propext, Classical.choice, Quot.sound
- `Elisa.Infer.C72_jitter_partial`: propext, Classical.choice, Quot.sound
- `Elisa.Infer.C72_jitter_refuted`: propext, Classical.choice, Quot.sound
- `Elisa.Infer.C72_names`: propext, Classical.choice, Quot.sound
- `Elisa.Infer.Walk.C72_stuck_refuted`: propext, Classical.choice, Quot.sound
- `Elisa.Infer.C73_profile_partial`: propext, Classical.choice, Quot.sound
- `Elisa.Infer.C73_rtol_refuted`: propext, Classical.choice, Quot.sound
- `Elisa.Infer.C73_zero_refuted`: propext, Classical.choice, Quot.sound
- `Elisa.Infer.C73_rtol_argument`: propext, Classical.choice, Quot.sound
- `Elisa.Infer.C73_negative_rtol_refuted`: propext, Classical.choice, Quot.sound
- `Elisa.Infer.C73_rtol_search`: propext, Classical.choice, Quot.sound
- `Elisa.Infer.C73_free`: propext, Classical.choice, Quot.sound
- `Elisa.Infer.C73_decreasing_refuted`: propext, Classical.choice, Quot.sound
- `Elisa.Infer.C74_datasets`: propext, Classical.choice, Quot.sound
- `Elisa.Infer.C74_components_partial`: propext, Classical.choice, Quot.sound
- `Elisa.Infer.C74_labels_refuted`: propext, Classical.choice, Quot.sound
- `Elisa.Infer.C74_override_boot`: propext, Classical.choice, Quot.sound
- `Elisa.Infer.C74_override_refuted`: propext, Classical.choice, Quot.sound
- `Elisa.Infer.C74_log_invariant`: propext, Classical.choice, Quot.sound
- `Elisa.Infer.C74_unit_flux_refuted`: propext, Classical.choice, Quot.sound
- `Elisa.Infer.C74_dist_refuted`: propext, Quot.sound
- `Elisa.Infer.C75_propagation`: propext, Classical.choice, Quot.sound
- `Elisa.Infer.C75_information`: propext, Classical.choice, Quot.sound
- `Elisa.Infer.C75_source`: propext, Classical.choice, Quot.sound
- `Elisa.Infer.C75_selection`: propext, Classical.choice, Quot.sound
- `Elisa.Infer.C75_posterior_partial`: propext, Classical.choice, Quot.sound
- `Elisa.Infer.C75_single_refuted`: propext, Classical.choice, Quot.sound
- `Elisa.Infer.C75_posterior_composite_refuted`: propext, Classical.choice, Quot.sound
- `Elisa.Infer.C75_posterior_fn_refuted`: propext
- `Elisa.Infer.C75_sample_covariance`: propext, Classical.choice, Quot.sound
- `Elisa.Infer.C75_samples_partial`: propext, Quot.sound
- `Elisa.Infer.C75_samples_refuted`: propext, Quot.sound
- `Elisa.Infer.C75_posterior_composite_error`: propext, Classical.choice, Quot.sound
- `Elisa.Models.Settings.C76_band_current`: propext, Classical.choice, Quot.sound
- `Elisa.Models.Settings.C76_band_last_accepted`: propext, Classical.choice, Quot.sound
- `Elisa.Models.Settings.C76_obtained_kept`: propext, Classical.choice, Quot.sound
- `Elisa.Models.Settings.C76_band_ordered_partial`: propext, Classical.choice, Quot.sound
- `Elisa.Models.Settings.C76_any_band_selectable`: propext, Classical.choice, Quot.sound
- `Elisa.Models.Settings.C76_flux_in_current_band`: propext, Classical.choice, Quot.sound
- `Elisa.Models.Settings.C76_unvalidated_refuted`: propext, Classical.choice, Quot.sound
- `Elisa.Models.Settings.C76_absorption_current`: propext, Classical.choice, Quot.sound
- `Elisa.Models.Settings.C76_absorption_assign`: propext, Classical.choice, Quot.sound
- `Elisa.Infer.Resample.C77_reuse_unobservable`: propext, Classical.choice, Quot.sound
- `Elisa.Infer.Resample.C77_last_success`: propext, Classical.choice, Quot.sound
- `Elisa.Infer.Resample.C77_failure_and_gof`: propext, Classical.choice, Quot.sound
- `Elisa.Infer.Resample.C77_recorded`: propext, Classical.choice, Quot.sound
- `Elisa.Infer.Resample.C77_boot`: propext, Classical.choice, Quot.sound
- `Elisa.Infer.Resample.C77_boot_history`: propext, Classical.choice, Quot.sound
- `Elisa.Infer.Resample.C77_ppc_history`: propext, Classical.choice, Quot.sound
- `Elisa.Infer.Resample.C77_joint_draws`: propext, Classical.choice, Quot.sound
- `Elisa.Infer.Resample.C77_ppc_rows_partial`: propext, Quot.sound
- `Elisa.Infer.Resample.C77_ppc_data_fits`: propext
- `Elisa.Infer.Resample.C77_ppc_rows_refuted`: propext
- `Elisa.Infer.Resample.C77_seed`: propext, Classical.choice, Quot.sound
- `Elisa.Infer.Resample.C78_plots_current_partial`: propext, Classical.choice, Quot.sound
- `Elisa.Infer.Resample.C78_after_plot`: propext
- `Elisa.Infer.Resample.C78_stale_plot_refuted`: propext
- `Elisa.Infer.C79_start`: propext, Classical.choice, Quot.sound
- `Elisa.Infer.C79_unknown_ignored`: propext, Classical.choice, Quot.sound
- `Elisa.Infer.C79_unknown_method`: propext, Classical.choice, Quot.sound
- `Elisa.Infer.C79_lm`: propext, Classical.choice, Quot.sound
- `Elisa.Infer.C79_lm_partial`: propext, Classical.choice, Quot.sound
- `Elisa.Infer.C79_ns_partial`: propext, Classical.choice, Quot.sound
- `Elisa.Infer.C79_ns_interrupted`: propext, Classical.choice, Quot.sound
- `Elisa.Infer.C79_lm_refuted`: propext
- `Elisa.Infer.C79_ns_refuted`: propext
- `Elisa.Infer.C79_ns_empty`: propext
- `Elisa.Infer.C80_adaptation`: propext, Classical.choice, Quot.sound
- `Elisa.Infer.C80_mean_accept`: propext, Classical.choice, Quot.sound
- `Elisa.Infer.C80_resume_partial`: propext, Classical.choice, Quot.sound
- `Elisa.Infer.C80_left_behind`: propext, Quot.sound
- `Elisa.Infer.C80_resume_mean`: propext, Classical.choice, Quot.sound
- `Elisa.Infer.C80_resume_refuted`: propext, Classical.choice, Quot.sound
- `Elisa.Infer.C80_resume_mean_refuted`: propext, Classical.choice, Quot.sound
- `Elisa.Infer.C81_states`: propext
- `Elisa.Infer.C81_states_only`: propext
- `Elisa.Infer.C81_start`: propext, Classical.choice, Quot.sound
- `Elisa.Infer.C81_draws`: propext, Classical.choice, Quot.sound
- `Elisa.Infer.C81_stats`: propext, Quot.sound
- `Elisa.Infer.C82_eti_content`: propext, Classical.choice, Quot.sound
- `Elisa.Infer.C82_eti_nested`: propext, Classical.choice, Quot.sound
- `Elisa.Infer.C82_order`: propext, Classical.choice, Quot.sound
- `Elisa.Infer.C82_eti_units`: propext, Classical.choice, Quot.sound
- `Elisa.Infer.C82_hdi`: propext, Classical.choice, Quot.sound
- `Elisa.Infer.C82_hdi_median_refuted`: propext, Classical.choice, Quot.sound
- `Elisa.Infer.C82_fn_partial`: propext, Classical.choice, Quot.sound
- `Elisa.Infer.C82_hdi_fn_refuted`: propext, Classical.choice, Quot.sound
- `Elisa.Infer.C82_hdi_fn_error`: propext, Classical.choice, Quot.sound
- `Elisa.Infer.C82_fn_sample`: propext, Classical.choice, Quot.sound
- `Elisa.Infer.C83_bracket`: propext, Classical.choice, Quot.sound
- `Elisa.Infer.C83_poisson`: propext, Classical.choice, Quot.sound
- `Elisa.Infer.C83_wstat_partial`: propext, Classical.choice, Quot.sound
- `Elisa.Infer.C83_wstat_refuted`: propext, Classical.choice, Quot.sound
- `Elisa.Infer.C83_compared`: propext, Classical.choice, Quot.sound
- `Elisa.Infer.C83_expectation`: propext, Classical.choice, Quot.sound
- `Elisa.Infer.C83_own_channels`: propext, Classical.choice, Quot.sound
- `Elisa.Infer.C84_channels`: propext, Classical.choice, Quot.sound
- `Elisa.Infer.C84_total_of`: propext, Classical.choice, Quot.sound
- `Elisa.Infer.C84_point_partial`: propext, Classical.choice, Quot.sound
- `Elisa.Infer.C84_parts`: propext, Classical.choice, Quot.sound
- `Elisa.Infer.C84_point_refuted`: propext, Classical.choice, Quot.sound
- `Elisa.Infer.C84_deviance_partial`: propext, Classical.choice, Quot.sound
- `Elisa.Infer.C84_deviance_refuted`: propext, Classical.choice, Quot.sound
- `Elisa.Infer.C84_ess_partial`: propext, Classical.choice, Quot.sound
- `Elisa.Infer.C84_ess_refuted`: propext, Classical.choice, Quot.sound
- `Elisa.Infer.C84_reff_partial`: propext, Classical.choice, Quot.sound
- `Elisa.Infer.C84_reff_mcmc`: propext, Classical.choice, Quot.sound
- `Elisa.Infer.C84_reff_refuted`: propext, Classical.choice, Quot.sound
- `Elisa.Infer.C84_pareto_partial`: propext, Classical.choice, Quot.sound
- `Elisa.Infer.C84_pareto_refuted`: propext, Classical.choice, Quot.sound
- `Elisa.Data.C85_fwhm`: propext, Classical.choice, Quot.sound
- `Elisa.Data.C85_fwhm_zero`: propext, Classical.choice, Quot.sound
- `Elisa.Data.C85_fwhm_units`: propext, Classical.choice, Quot.sound
- `Elisa.Data.C85_channel`: propext, Classical.choice, Quot.sound
- `Elisa.Data.C85_binning_refuted`: propext, Classical.choice, Quot.sound
- `Elisa.Infer.C86_refused`: propext, Classical.choice, Quot.sound
- `Elisa.Infer.C86_descending_refuted`: propext, Classical.choice, Quot.sound
- `Elisa.Infer.C86_zero_scale_refuted`: propext, Classical.choice, Quot.sound
- `Elisa.Infer.C86_zero_background_scale_refuted`: propext, Classical.choice, Quot.sound
- `Elisa.Infer.C86_background_rate_refuted`: propext, Classical.choice, Quot.sound
- `Elisa.Infer.C86_simulate`: propext, Classical.choice, Quot.sound
- `Elisa.Infer.C86_unbiased_partial`: propext, Classical.choice, Quot.sound
- `Elisa.Infer.C86_from_data`: propext, Classical.choice, Quot.sound
- `Elisa.Infer.C86_from_data_total_partial`: propext, Classical.choice, Quot.sound
- `Elisa.Models.Slot.C87_assign`: propext, Classical.choice, Quot.sound
- `Elisa.Models.Slot.C87_accepted`: propext, Classical.choice, Quot.sound
- `Elisa.Models.Slot.C87_number`: propext, Classical.choice, Quot.sound
- `Elisa.Models.Slot.C87_errors`: propext, Classical.choice, Quot.sound
- `Elisa.Models.Slot.C87_getitem`: propext, Classical.choice, Quot.sound
- `Elisa.Models.Slot.C87_label_refuted`: propext, Classical.choice, Quot.sound
- `Elisa.Models.Slot.C87_mapping_refuted`: propext, Classical.choice, Quot.sound
- `Elisa.Models.Slot.C87_misspelt_refuted`: propext, Classical.choice, Quot.sound
- `Elisa.Models.Slot.C88_signature`: propext, Classical.choice, Quot.sound
- `Elisa.Models.Slot.C88_required`: propext, Classical.choice, Quot.sound
- `Elisa.Models.Slot.C88_call`: propext, Classical.choice, Quot.sound
- `Elisa.Models.Slot.C88_prototype`: propext
- `Elisa.Models.Slot.C88_subclass_refuted`: propext
- `Elisa.Models.Slot.C88_failed_refuted`: propext, Classical.choice, Quot.sound
- `Elisa.Util.Report.C89_errors`: propext, Classical.choice, Quot.sound
- `Elisa.Util.Report.C89_value_partial`: propext, Classical.choice, Quot.sound
- `Elisa.Util.Report.C89_carry_refuted`: propext, Classical.choice, Quot.sound
- `Elisa.Util.Report.C89_zero_refuted`: propext, Classical.choice, Quot.sound
- `Elisa.Models.Info.C90_array_partial`: propext, Classical.choice, Quot.sound
- `Elisa.Models.Info.C90_shared_refuted`: propext, Classical.choice, Quot.sound
- `Elisa.Models.Info.C90_errors`: propext
- `Elisa.Models.Info.C90_mapping`: propext, Classical.choice, Quot.sound
- `Elisa.Models.Info.C90_mapping_errors`: propext, Classical.choice, Quot.sound
- `Elisa.Models.Info.C90_default`: propext, Classical.choice, Quot.sound
- `Elisa.Models.Info.C90_fixed_refuted`: propext, Classical.choice, Quot.sound
- `Elisa.Models.Info.C90_folded`: propext, Classical.choice, Quot.sound
- `Elisa.Models.Info.C90_folded_additive`: propext, Classical.choice, Quot.sound
- `Elisa.Models.Xspec.C91_names`: propext, Classical.choice, Quot.sound
- `Elisa.Models.Xspec.C91_values`: propext, Classical.choice, Quot.sound
- `Elisa.Models.Xspec.C91_config`: propext, Classical.choice, Quot.sound
- `Elisa.Models.Xspec.C91_slots`: propext, Classical.choice, Quot.sound
- `Elisa.Models.Xspec.C91_bounds_refuted`: propext, Classical.choice, Quot.sound
- `Elisa.Models.Xspec.C91_norm_refuted`: propext, Classical.choice, Quot.sound
- `Elisa.Models.Xspec.C91_grad`: propext, Classical.choice, Quot.sound
- `Elisa.Models.Xspec.C91_grad_refuted`: propext
- `Elisa.Models.Xspec.C91_range`: propext, Classical.choice, Quot.sound
- `Elisa.Models.Xspec.C91_convolution_partial`: propext, Classical.choice, Quot.sound
- `Elisa.Models.Xspec.C91_identity`: propext, Classical.choice, Quot.sound
- `Elisa.Models.Xspec.C91_nhigh_refuted`: propext, Classical.choice, Quot.sound
- `Elisa.Models.Xspec.C91_touching_refuted`: propext, Classical.choice, Quot.sound
- `Elisa.Models.Xspec.C91_defaults`: propext, Classical.choice, Quot.sound
- `Elisa.Models.Xspec.C91_supports`: propext
- `Elisa.Plot.C92_step`: propext, Classical.choice, Quot.sound
- `Elisa.Plot.C92_value`: propext, Classical.choice, Quot.sound
- `Elisa.Plot.C92_errors`: propext, Classical.choice, Quot.sound
- `Elisa.Plot.C92_ribbon`: propext, Classical.choice, Quot.sound
- `Elisa.Plot.C92_ribbon_drawn`: propext, Classical.choice, Quot.sound
- `Elisa.Plot.C92_egrid`: propext, Classical.choice, Quot.sound
- `Elisa.Plot.C92_unfolded`: propext, Classical.choice, Quot.sound
- `Elisa.Plot.C92_narrow_refuted`: propext, Classical.choice, Quot.sound
- `Elisa.Plot.C92_limits`: propext, Classical.choice, Quot.sound
- `Elisa.Plot.C92_limits_refuted`: propext, Classical.choice, Quot.sound
- `Elisa.Plot.C93_band`: propext, Classical.choice, Quot.sound
- `Elisa.Plot.C93_symmetric`: propext, Classical.choice, Quot.sound
- `Elisa.Plot.C93_nested`: propext, Classical.choice, Quot.sound
- `Elisa.Plot.C93_levels`: propext, Classical.choice, Quot.sound
- `Elisa.Plot.C93_marks`: propext, Classical.choice, Quot.sound
- `Elisa.Plot.C93_normal`: propext, Classical.choice, Quot.sound
- `Elisa.Plot.C93_nolevel_refuted`: propext, Classical.choice, Quot.sound
- `Elisa.Plot.C93_unfolded_mle`: propext, Classical.choice, Quot.sound
- `Elisa.Plot.C93_unfolded_levels`: propext, Classical.choice, Quot.sound
- `Elisa.Plot.C93_unfolded_posterior`: propext, Classical.choice, Quot.sound
- `Elisa.Plot.C93_all_replaced`: propext, Classical.choice, Quot.sound
- `Elisa.Plot.C93_mle_refuted`: propext, Classical.choice, Quot.sound
- `Elisa.Plot.C93_nocl_refuted`: propext, Classical.choice, Quot.sound
- `Elisa.Plot.C93_folded`: propext, Classical.choice, Quot.sound
- `Elisa.Plot.C94_ecdf`: propext, Classical.choice, Quot.sound
- `Elisa.Plot.C94_pit_detrend`: propext, Classical.choice, Quot.sound
- `Elisa.Plot.C94_pit_cover`: propext, Classical.choice, Quot.sound
- `Elisa.Plot.C94_positions`: propext, Classical.choice, Quot.sound
- `Elisa.Plot.C94_points`: propext, Classical.choice, Quot.sound
- `Elisa.Plot.C94_detrend`: propext, Classical.choice, Quot.sound
- `Elisa.Plot.C94_sim_band`: propext, Classical.choice, Quot.sound
- `Elisa.Plot.C94_theor_band`: propext, Classical.choice, Quot.sound
- `Elisa.Plot.C94_gof_partial`: propext, Classical.choice, Quot.sound
- `Elisa.Plot.C94_gof_refuted`: propext, Classical.choice, Quot.sound
- `Elisa.Plot.C94_text`: propext, Classical.choice, Quot.sound
- `Elisa.Plot.C94_total_partial`: propext, Classical.choice, Quot.sound
- `Elisa.Plot.C94_total_refuted`: propext, Classical.choice, Quot.sound
- `Elisa.Plot.C95_words`: propext, Classical.choice, Quot.sound
- `Elisa.Plot.C95_unknown`: propext, Quot.sound
- `Elisa.Plot.C95_space_refuted`: propext, Classical.choice, Quot.sound
- `Elisa.Plot.C95_figures`: propext, Classical.choice, Quot.sound
- `Elisa.Plot.C95_needs`: propext, Quot.sound
- `Elisa.Plot.C95_panels`: propext, Classical.choice, Quot.sound
- `Elisa.Plot.C95_residuals`: propext, Classical.choice, Quot.sound
- `Elisa.Plot.C95_labels`: propext, Classical.choice, Quot.sound
- `Elisa.Plot.C95_both_refuted`: propext
- `Elisa.Plot.C95_jansky`: propext, Classical.choice, Quot.sound
- `Elisa.Data.C96_path`: propext, Classical.choice, Quot.sound
- `Elisa.Data.C96_leading`: propext, Quot.sound
- `Elisa.Data.C96_directory_refuted`: propext, Classical.choice, Quot.sound
- `Elisa.Data.C96_row`: propext, Classical.choice, Quot.sound
- `Elisa.Data.C96_negative_refuted`: propext, Classical.choice, Quot.sound
- `Elisa.Data.C96_files`: propext, Classical.choice, Quot.sound
- `Elisa.Data.C96_refused`: propext, Classical.choice, Quot.sound
- `Elisa.Data.C96_background_kept`: propext, Classical.choice, Quot.sound
- `Elisa.Data.C96_type_two`: propext, Classical.choice, Quot.sound
- `Elisa.Data.C96_accepted`: propext, Classical.choice, Quot.sound
- `Elisa.Data.C96_group`: propext, Classical.choice, Quot.sound
- `Elisa.Infer.C97_bins`: propext, Classical.choice, Quot.sound
- `Elisa.Infer.C97_powerlaw`: propext, Classical.choice, Quot.sound
- `Elisa.Infer.C97_member`: propext, Classical.choice, Quot.sound
- `Elisa.Infer.C97_fit`: propext, Classical.choice, Quot.sound
- `Elisa.Plot.C98_deviance`: propext, Classical.choice, Quot.sound
- `Elisa.Plot.C98_pearson_partial`: propext, Classical.choice, Quot.sound
- `Elisa.Plot.C98_concentrated`: propext, Classical.choice, Quot.sound
- `Elisa.Plot.C98_concentrated_pearson`: propext, Classical.choice, Quot.sound
- `Elisa.Plot.C98_quantile`: propext, Classical.choice, Quot.sound
- `Elisa.Plot.C98_mle_refuted`: propext, Classical.choice, Quot.sound
- `Elisa.Plot.Cache.C99_fresh_partial`: propext
- `Elisa.Plot.Cache.C99_drawn_partial`: propext
- `Elisa.Plot.Cache.C99_stale_refuted`: propext
- `Elisa.Plot.Settings.C100_assign`: propext, Classical.choice, Quot.sound
- `Elisa.Plot.Settings.C100_settings`: propext, Classical.choice, Quot.sound
- `Elisa.Plot.Settings.C100_colors_partial`: propext, Classical.choice, Quot.sound
- `Elisa.Plot.Settings.C100_colors_refuted`: propext, Classical.choice, Quot.sound
- `Elisa.Plot.Settings.C100_refused`: propext, Classical.choice, Quot.sound
- `Elisa.Plot.Settings.C100_markers_partial`: propext, Quot.sound
- `Elisa.Plot.Settings.C100_markers_refuted`: propext
- `Elisa.Plot.Settings.C100_ndata_partial`: propext, Classical.choice, Quot.sound
- `Elisa.Plot.Settings.C100_ndata_refuted`: propext
- `Elisa.Models.Protect.C101_delete`: propext
- `Elisa.Models.Protect.C101_model`: propext, Classical.choice, Quot.sound
- `Elisa.Models.Protect.C101_component`: propext, Classical.choice, Quot.sound
- `Elisa.Models.Protect.C101_compiled`: propext
- `Elisa.Models.Protect.C101_method_refuted`: none
- `Elisa.Models.Protect.C101_define_errors`: propext, Quot.sound
- `Elisa.Models.Protect.C101_define_partial`: propext, Quot.sound
- `Elisa.Models.Protect.C101_define_refuted`: propext, Quot.sound
- `Elisa.Infer.Store.C102_loaded`: propext, Classical.choice, Quot.sound
- `Elisa.Infer.Store.C102_refused`: propext
- `Elisa.Infer.Store.C102_others`: propext, Classical.choice, Quot.sound
- `Elisa.Infer.Store.C102_interrupted_partial`: propext, Classical.choice, Quot.sound
- `Elisa.Infer.Store.C102_interrupted_refuted`: propext, Classical.choice, Quot.sound
- `Elisa.Infer.Summary.C103_mean`: propext, Classical.choice, Quot.sound
- `Elisa.Infer.Summary.C103_std`: propext, Classical.choice, Quot.sound
- `Elisa.Infer.Summary.C103_std_refuted`: propext, Classical.choice, Quot.sound
- `Elisa.Infer.Summary.C103_median`: propext, Classical.choice, Quot.sound
- `Elisa.Infer.Summary.C103_deviance`: propext, Classical.choice, Quot.sound
- `Elisa.Infer.Summary.C103_best_fit`: propext, Classical.choice, Quot.sound
- `Elisa.Infer.Summary.C103_divergence_partial`: propext
- `Elisa.Infer.Summary.C103_divergence_refuted`: propext
- `Elisa.Models.Spectra.C104_profile`: propext, Classical.choice, Quot.sound
- `Elisa.Models.Spectra.C104_flux_partial`: propext, Classical.choice, Quot.sound
- `Elisa.Models.Spectra.C104_edge_refuted`: propext, Classical.choice, Quot.sound
- `Elisa.Models.Spectra.C104_inside_refuted`: propext, Classical.choice, Quot.sound
- `Elisa.Models.Spectra.C104_otts`: propext, Classical.choice, Quot.sound
- `Elisa.Infer.Process.C105_restored_partial`: propext, Classical.choice, Quot.sound
- `Elisa.Infer.Process.C105_raised_refuted`: propext, Classical.choice, Quot.sound
- `Elisa.Infer.Process.C105_random_refuted`: propext
- `Elisa.Infer.Process.C105_seeded`: propext
- `Elisa.Infer.Process.C105_merge`: propext
- `Elisa.Infer.Evidence.C106_fresh`: propext, Classical.choice, Quot.sound
- `Elisa.Infer.Evidence.C106_nautilus_partial`: propext, Classical.choice, Quot.sound
- `Elisa.Infer.Evidence.C106_read_refuted`: propext, Classical.choice, Quot.sound
- `Elisa.Plot.Resp.C107_area`: propext, Classical.choice, Quot.sound
- `Elisa.Plot.Resp.C107_curve_partial`: propext, Classical.choice, Quot.sound
- `Elisa.Plot.Resp.C107_curve_refuted`: propext, Classical.choice, Quot.sound
- `Elisa.Plot.Resp.C107_hatch_partial`: propext, Classical.choice, Quot.sound
- `Elisa.Plot.Resp.C107_narrow_refuted`: propext, Classical.choice, Quot.sound
- `Elisa.Plot.Resp.C108_cells`: propext, Classical.choice, Quot.sound
- `Elisa.Plot.Resp.C108_good`: propext, Classical.choice, Quot.sound
- `Elisa.Plot.Resp.C108_hatch_partial`: propext, Classical.choice, Quot.sound
- `Elisa.Plot.Resp.C108_hatch_refuted`: propext, Classical.choice, Quot.sound
- `Elisa.Data.C109_bar`: propext, Classical.choice, Quot.sound
- `Elisa.Data.C109_rates`: propext, Classical.choice, Quot.sound
- `Elisa.Data.C109_sig_partial`: propext, Classical.choice, Quot.sound
- `Elisa.Data.C109_sig_refuted`: propext, Classical.choice, Quot.sound
- `Elisa.Models.Algebra.C110_name`: propext, Classical.choice, Quot.sound
- `Elisa.Models.Algebra.C110_latex`: propext, Classical.choice, Quot.sound
- `Elisa.Models.Algebra.C110_replace`: propext, Classical.choice, Quot.sound
- `Elisa.Infer.PostIntensity.C111_statistics`: propext, Classical.choice, Quot.sound
- `Elisa.Infer.PostIntensity.C111_fixed`: propext, Classical.choice, Quot.sound
- `Elisa.Infer.PostIntensity.C111_unknown`: propext, Classical.choice, Quot.sound
- `Elisa.Infer.PostIntensity.C111_components_partial`: propext, Classical.choice, Quot.sound
- `Elisa.Infer.PostIntensity.C111_components_refuted`: propext, Classical.choice, Quot.sound
- `Elisa.Infer.PostIntensity.C111_all`: propext, Classical.choice, Quot.sound
- `Elisa.Util.Unit.C112_unit_partial`: propext, Classical.choice, Quot.sound
- `Elisa.Util.Unit.C112_scale_refuted`: propext, Classical.choice, Quot.sound
- `Elisa.Util.Unit.C112_invalid`: propext, Classical.choice, Quot.sound
- `Elisa.Util.Unit.C112_param_label`: propext, Quot.sound
- `Elisa.Plot.Quant.C113_normal`: propext, Classical.choice, Quot.sound
- `Elisa.Plot.Quant.C113_mle_normal`: propext, Classical.choice, Quot.sound
- `Elisa.Plot.Quant.C113_finite`: propext, Classical.choice, Quot.sound
- `Elisa.Plot.Quant.C113_sign`: propext, Classical.choice, Quot.sound
- `Elisa.Plot.Quant.C113_rounded`: propext, Classical.choice, Quot.sound
- `Elisa.Plot.Quant.C113_plain`: propext, Classical.choice, Quot.sound
- `Elisa.Models.Spectra.C114_cutoff`: propext, Classical.choice, Quot.sound
- `Elisa.Models.Spectra.C114_cutoff_peak`: propext, Classical.choice, Quot.sound
- `Elisa.Models.Spectra.C114_compt`: propext, Classical.choice, Quot.sound
- `Elisa.Models.Spectra.C114_ottb`: propext, Classical.choice, Quot.sound
- `Elisa.Models.Spectra.C114_bent`: propext, Classical.choice, Quot.sound
- `Elisa.Models.Spectra.C114_edge`: propext, Classical.choice, Quot.sound
- `Elisa.Models.Spectra.C114_expabs`: propext, Classical.choice, Quot.sound
- `Elisa.Models.Spectra.C114_expfac`: propext, Classical.choice, Quot.sound
- `Elisa.Models.Spectra.C114_highecut`: propext, Classical.choice, Quot.sound
- `Elisa.Infer.Sites.C115_results_partial`: propext, Classical.choice, Quot.sound
- `Elisa.Infer.Sites.C115_models_refuted`: propext
- `Elisa.Infer.Sites.C115_params_refuted`: propext
- `Elisa.Infer.Sites.C115_counts_partial`: propext, Classical.choice, Quot.sound
- `Elisa.Infer.Sites.C115_substituted_partial`: propext, Classical.choice, Quot.sound
- `Elisa.Infer.Sites.C115_counts_refuted`: propext
- `Elisa.Infer.Sites.C115_total_refuted`: propext
- `Elisa.Models.Density.C116_refused`: propext, Classical.choice, Quot.sound
- `Elisa.Models.Density.C116_values`: propext, Classical.choice, Quot.sound
- `Elisa.Models.Density.C116_meaning`: propext, Classical.choice, Quot.sound
- `Elisa.Models.Density.C116_flat`: propext, Classical.choice, Quot.sound
- `Elisa.Models.Density.C116_components`: propext, Classical.choice, Quot.sound
- `Elisa.Models.Density.C116_flux`: propext, Classical.choice, Quot.sound
- `Elisa.Infer.Walk.C117_draws`: propext, Classical.choice, Quot.sound
- `Elisa.Infer.Walk.C117_continue_partial`: propext, Quot.sound
- `Elisa.Infer.Walk.C117_continue_refuted`: none
- `Elisa.Infer.Walk.C117_zeus_seed`: propext, Classical.choice, Quot.sound
- `Elisa.Infer.Walk.C117_resumed`: propext, Classical.choice, Quot.sound
- `Elisa.Infer.Walk.C117_returned`: propext, Classical.choice, Quot.sound
- `Elisa.Infer.Walk.C117_emcee_seed_refuted`: propext, Classical.choice, Quot.sound
- `Elisa.Infer.Walk.C117_emcee_process_refuted`: none
- `Elisa.Infer.Walk.C117_nan`: propext, Classical.choice, Quot.sound
- `Elisa.Infer.Walk.C117_moves`: propext, Classical.choice, Quot.sound
- `Elisa.Infer.Crit.C118_formula`: propext, Classical.choice, Quot.sound
- `Elisa.Infer.Crit.C118_additive`: propext, Classical.choice, Quot.sound
- `Elisa.Infer.Crit.C118_order`: propext, Classical.choice, Quot.sound
- `Elisa.Infer.Crit.C118_bounds`: propext, Classical.choice, Quot.sound
- `Elisa.Infer.Crit.C118_identical`: propext, Classical.choice, Quot.sound
- `Elisa.Infer.Crit.C118_constants`: propext, Classical.choice, Quot.sound
- `Elisa.Infer.Crit.C118_warning`: propext, Classical.choice, Quot.sound
- `Elisa.Infer.C119_channel_convex`: propext, Classical.choice, Quot.sound
- `Elisa.Infer.C119_single_minimum`: propext, Classical.choice, Quot.sound
- `Elisa.Infer.C119_fit_convex`: propext, Classical.choice, Quot.sound
- `Elisa.Infer.C119_no_local_minima`: propext, Classical.choice, Quot.sound
- `Elisa.Infer.C120_balance`: propext, Classical.choice, Quot.sound
- `Elisa.Plot.ErrBar.C121_levels`: propext, Classical.choice, Quot.sound
- `Elisa.Plot.ErrBar.C121_interval`: propext, Classical.choice, Quot.sound
- `Elisa.Plot.ErrBar.C121_empty`: propext, Classical.choice, Quot.sound
- `Elisa.Plot.ErrBar.C121_start`: propext, Classical.choice, Quot.sound
- `Elisa.Data.Trim.C122_trim_partial`: propext, Classical.choice, Quot.sound
- `Elisa.Data.Trim.C122_gap_refuted`: propext, Classical.choice, Quot.sound
- `Elisa.Data.Trim.C122_empty`: propext, Classical.choice, Quot.sound
- `Elisa.Infer.Merge.C123_scales_refuted`: propext, Classical.choice, Quot.sound
- `Elisa.Infer.Merge.C123_coarser_partial`: propext, Classical.choice, Quot.sound
- `Elisa.Infer.Grad.C124_gradient`: propext, Classical.choice, Quot.sound
- `Elisa.Infer.Grad.C124_stationary`: propext, Classical.choice, Quot.sound
- `Elisa.Infer.Grad.C124_component`: propext, Classical.choice, Quot.sound
- `Elisa.Util.Suffix.C125_accepted`: propext, Classical.choice, Quot.sound
- `Elisa.Util.Suffix.C125_history`: propext, Classical.choice, Quot.sound
- `Elisa.Util.Suffix.C125_data_suffix`: propext, Classical.choice, Quot.sound
- `Elisa.Util.Suffix.C125_distinct_partial`: propext, Classical.choice, Quot.sound
- `Elisa.Util.Suffix.C125_template_refuted`: propext, Classical.choice, Quot.sound
- `Elisa.Util.Suffix.C125_unicode_partial`: propext, Classical.choice, Quot.sound
- `Elisa.Util.Suffix.C125_unicode_refuted`: propext, Classical.choice, Quot.sound
- `Elisa.Infer.Limit.C126_pgstat`: propext, Classical.choice, Quot.sound
- `Elisa.Infer.Limit.C126_wstat`: propext, Classical.choice, Quot.sound
- `Elisa.Infer.Limit.C126_errors`: propext, Classical.choice, Quot.sound
- `Elisa.Infer.Limit.C126_zero_background`: propext, Classical.choice, Quot.sound
- `Elisa.Infer.Limit.C126_chi2`: propext, Classical.choice, Quot.sound
- `Elisa.Infer.Unique.C127_strict`: propext, Classical.choice, Quot.sound
- `Elisa.Infer.Unique.C127_predictions`: propext, Classical.choice, Quot.sound
- `Elisa.Infer.Unique.C127_unique`: propext, Classical.choice, Quot.sound
- `Elisa.Infer.Tables.C128_stat_partial`: propext, Classical.choice, Quot.sound
- `Elisa.Infer.Tables.C128_total_refuted`: propext, Classical.choice, Quot.sound
- `Elisa.Infer.Tables.C128_params`: propext, Classical.choice, Quot.sound
- `Elisa.Infer.Tables.C128_ic`: propext, Classical.choice, Quot.sound
- `Elisa.Infer.Tables.C128_info`: propext, Quot.sound
- `Elisa.Infer.Tables.C128_data`: propext, Quot.sound
- `Elisa.Infer.Order.C129_input`: propext, Classical.choice, Quot.sound
- `Elisa.Infer.Order.C129_result`: propext, Classical.choice, Quot.sound
- `Elisa.Infer.Order.C129_names`: propext
- `Elisa.Infer.Exist.C130_continuous`: propext, Classical.choice, Quot.sound
- `Elisa.Infer.Exist.C130_best_fit`: propext, Classical.choice, Quot.sound
- `Elisa.Infer.Exist.C130_open_bounds`: propext, Classical.choice, Quot.sound
- `Elisa.Plot.Compare.C131_channel`: propext, Classical.choice, Quot.sound
- `Elisa.Plot.Compare.C131_fit`: propext, Classical.choice, Quot.sound
- `Elisa.Models.Nest.C132_freeze`: propext, Classical.choice, Quot.sound
- `Elisa.Models.Nest.C132_freeze_best`: propext, Classical.choice, Quot.sound
- `Elisa.Models.Nest.C132_freeze_count`: propext, Classical.choice, Quot.sound
- `Elisa.Models.Nest.C132_link_partial`: propext, Classical.choice, Quot.sound
- `Elisa.Models.Nest.C132_link_refuted`: propext, Classical.choice, Quot.sound
- `Elisa.Models.Catalogue.C133_component_partial`: propext, Classical.choice, Quot.sound
- `Elisa.Models.Catalogue.C133_bounds_refuted`: propext, Classical.choice, Quot.sound
- `Elisa.Models.Catalogue.C133_model_partial`: propext, Classical.choice, Quot.sound
- `Elisa.Models.Catalogue.C133_add_absorb_partial`: propext, Classical.choice, Quot.sound
- `Elisa.Models.Catalogue.C133_counts`: propext, Classical.choice, Quot.sound
- `Elisa.Models.Catalogue.C133_defaults`: propext, Classical.choice, Quot.sound
- `Elisa.Models.Catalogue.C133_defaults_conv`: propext, Classical.choice, Quot.sound
- `Elisa.Infer.FitFlux.C134_lumin`: propext, Classical.choice, Quot.sound
- `Elisa.Infer.FitFlux.C134_eiso`: propext, Classical.choice, Quot.sound
- `Elisa.Infer.FitFlux.C134_flux`: propext, Classical.choice, Quot.sound
- `Elisa.Infer.FitFlux.C134_photon`: propext, Classical.choice, Quot.sound
- `Elisa.Infer.FitFlux.C134_adjacent`: propext, Classical.choice, Quot.sound
- `Elisa.Infer.FitFlux.C134_energy`: propext, Classical.choice, Quot.sound
- `Elisa.Infer.FitFlux.C134_source`: propext, Classical.choice, Quot.sound
- `Elisa.Infer.FitFlux.C134_one_point_refuted`: propext, Classical.choice, Quot.sound
- `Elisa.Infer.FitFlux.C134_reversed_refuted`: propext, Classical.choice, Quot.sound
- `Elisa.Infer.Bayes.C135_prior`: propext, Classical.choice, Quot.sound
- `Elisa.Infer.Bayes.C135_posterior`: propext, Classical.choice, Quot.sound
- `Elisa.Infer.Bayes.C135_flat`: propext, Classical.choice, Quot.sound
- `Elisa.Infer.Bayes.C135_own_scale`: propext, Classical.choice, Quot.sound
- `Elisa.Infer.Bayes.C135_evidence`: propext, Classical.choice, Quot.sound
- `Elisa.Infer.Bayes.C135_mode_refuted`: propext, Classical.choice, Quot.sound
- `Elisa.Models.Catalogue.Off.C136_amplitude`: propext, Classical.choice, Quot.sound
- `Elisa.Models.Catalogue.Off.C136_off`: propext, Classical.choice, Quot.sound
- `Elisa.Models.Catalogue.Off.C136_absorbed`: propext, Classical.choice, Quot.sound
- `Elisa.Models.Catalogue.Off.C136_shifted`: propext, Classical.choice, Quot.sound
- `Elisa.Models.Catalogue.Off.C136_added_partial`: propext, Classical.choice, Quot.sound
- `Elisa.Models.Catalogue.Off.C136_added_refuted`: propext, Classical.choice, Quot.sound
- `Elisa.Data.Alias.C137_current_partial`: propext, Classical.choice, Quot.sound
- `Elisa.Data.Alias.C137_taken`: propext, Quot.sound
- `Elisa.Data.Alias.C137_fit`: propext, Classical.choice, Quot.sound
- `Elisa.Data.Alias.C137_spectrum`: propext, Classical.choice, Quot.sound
- `Elisa.Data.Alias.C137_dataset`: propext, Classical.choice, Quot.sound
- `Elisa.Data.Alias.C137_argument_refuted`: propext, Quot.sound
- `Elisa.Data.Alias.C137_restore_refuted`: propext, Quot.sound
- `Elisa.Data.Alias.C137_net_refuted`: propext, Quot.sound
- `Elisa.Infer.Stack.C138_stack`: propext, Classical.choice, Quot.sound
- `Elisa.Infer.Stack.C138_best`: propext, Classical.choice, Quot.sound
- `Elisa.Infer.Stack.C138_chi2`: propext, Classical.choice, Quot.sound
- `Elisa.Infer.Stack.C138_wstat_differs`: propext, Classical.choice, Quot.sound
- `Elisa.Data.Units.C139_flags`: propext, Classical.choice, Quot.sound
- `Elisa.Data.Units.C139_methods`: propext, Classical.choice, Quot.sound
- `Elisa.Data.Units.C139_history`: propext, Classical.choice, Quot.sound
- `Elisa.Data.Units.C139_made`: propext, Classical.choice, Quot.sound
- `Elisa.Data.Units.C139_fit`: propext, Classical.choice, Quot.sound
- `Elisa.Data.Units.C139_units`: propext, Classical.choice, Quot.sound
- `Elisa.Infer.Longer.C140_data`: propext, Classical.choice, Quot.sound
- `Elisa.Infer.Longer.C140_likelihood`: propext, Classical.choice, Quot.sound
- `Elisa.Infer.Longer.C140_statistic`: propext, Classical.choice, Quot.sound
- `Elisa.Infer.Longer.C140_region`: propext, Classical.choice, Quot.sound
- `Elisa.Infer.Longer.C140_longer`: propext, Classical.choice, Quot.sound
- `Elisa.Infer.Refine.C141_refine_partial`: propext, Classical.choice, Quot.sound
- `Elisa.Infer.Refine.C141_components_partial`: propext, Classical.choice, Quot.sound
- `Elisa.Infer.Refine.C141_broken_refuted`: propext, Classical.choice, Quot.sound
- `Elisa.Infer.Refine.C141_numeric_refuted`: propext, Classical.choice, Quot.sound
- `Elisa.Infer.Ignore.C142_flags_partial`: propext, Classical.choice, Quot.sound
- `Elisa.Infer.Ignore.C142_group_partial`: propext, Classical.choice, Quot.sound
- `Elisa.Infer.Ignore.C142_session_partial`: propext, Classical.choice, Quot.sound
- `Elisa.Infer.Ignore.C142_statistic_partial`: propext, Classical.choice, Quot.sound
- `Elisa.Infer.Ignore.C142_net_refuted`: propext, Classical.choice, Quot.sound
- `Elisa.Infer.TestLevel.C143_level_partial`: propext, Classical.choice, Quot.sound
- `Elisa.Infer.TestLevel.C143_exact`: propext, Classical.choice, Quot.sound
- `Elisa.Infer.TestLevel.C143_level_refuted`: propext, Classical.choice, Quot.sound
- `Elisa.Infer.TestLevel.C143_limit`: propext, Classical.choice, Quot.sound
- `Elisa.Grouping.Fl.C144_limit`: propext, Classical.choice, Quot.sound
- `Elisa.Grouping.Fl.C144_group_min`: propext, Classical.choice, Quot.sound
- `Elisa.Grouping.Fl.C144_group_opt`: propext, Classical.choice, Quot.sound
- `Elisa.Grouping.Fl.C144_group_counts`: propext, Classical.choice, Quot.sound
- `Elisa.Grouping.Fl.C145_group_counts`: propext, Classical.choice, Quot.sound
- `Elisa.Infer.Fl.C146_wstat`: propext, Classical.choice, Quot.sound
- `Elisa.Infer.Fl.C146_pgstat`: propext, Classical.choice, Quot.sound
- `Elisa.Infer.Fl.C146_negative_refuted`: propext, Classical.choice, Quot.sound
- `Elisa.Infer.Fl.C146_zero_refuted`: propext, Classical.choice, Quot.sound
- `Elisa.Infer.Fl.C147_counts`: propext, Classical.choice, Quot.sound
- `Elisa.Infer.Fl.C147_sparse`: propext, Classical.choice, Quot.sound
- `Elisa.Models.Catalogue.Doc.C148_rule_partial`: propext, Classical.choice, Quot.sound
- `Elisa.Models.Catalogue.Doc.C148_exact_partial`: propext, Classical.choice, Quot.sound
- `Elisa.Models.Catalogue.Doc.C148_photon`: propext, Classical.choice, Quot.sound
- `Elisa.Models.Catalogue.Doc.C148_smooth`: propext, Classical.choice, Quot.sound
- `Elisa.Models.Catalogue.Doc.C148_broken`: propext, Classical.choice, Quot.sound
- `Elisa.Models.Catalogue.Doc.C148_refuted`: propext, Classical.choice, Quot.sound
- `Elisa.Infer.Fl.C149_channel`: propext, Classical.choice, Quot.sound
- `Elisa.Infer.Fl.C149_perfect`: propext, Classical.choice, Quot.sound
- `Elisa.Infer.Fl.C149_practice`: propext, Classical.choice, Quot.sound
- `Elisa.Infer.Fl.C149_statistic`: propext, Classical.choice, Quot.sound
- `Elisa.Models.Fl.C150_error_partial`: propext, Classical.choice, Quot.sound
- `Elisa.Models.Fl.C150_practice`: propext, Classical.choice, Quot.sound
- `Elisa.Models.Fl.C150_one`: propext, Classical.choice, Quot.sound
- `Elisa.Models.Fl.C150_nonneg`: propext, Classical.choice, Quot.sound
- `Elisa.Models.Fl.C150_refuted`: propext, Classical.choice, Quot.sound
- `Elisa.Grouping.Fl.C151_terms`: propext, Classical.choice, Quot.sound
- `Elisa.Grouping.Fl.C151_error_partial`: propext, Classical.choice, Quot.sound
- `Elisa.Grouping.Fl.C151_practice`: propext, Classical.choice, Quot.sound
- `Elisa.Grouping.Fl.C151_grouping`: propext, Classical.choice, Quot.sound
- `Elisa.Grouping.Fl.C151_refuted`: propext, Classical.choice, Quot.sound
- `Elisa.Grouping.Fl.C151_grouping_refuted`: propext, Classical.choice, Quot.sound
- `Elisa.Grouping.Fl.C151_grouping_computed`: propext, Classical.choice, Quot.sound
- `Elisa.Grouping.Fl.C151_grouping_unit`: propext, Classical.choice, Quot.sound
- `Elisa.Infer.Fl.C152_chi2`: propext, Classical.choice, Quot.sound
- `Elisa.Infer.Fl.C152_known`: propext, Classical.choice, Quot.sound
- `Elisa.Infer.Fl.C152_pstat`: propext, Classical.choice, Quot.sound
- `Elisa.Infer.Fl.C153_wstat`: propext, Classical.choice, Quot.sound
- `Elisa.Grouping.Fl.C154_error_partial`: propext, Classical.choice, Quot.sound
- `Elisa.Grouping.Fl.C154_practice`: propext, Classical.choice, Quot.sound
- `Elisa.Grouping.Fl.C154_rounded_grouping`: propext, Classical.choice, Quot.sound
- `Elisa.Grouping.Fl.C154_exact`: propext, Classical.choice, Quot.sound
- `Elisa.Grouping.Fl.C154_zero_refuted`: propext, Classical.choice, Quot.sound
- `Elisa.Grouping.Fl.C154_grouping`: propext, Classical.choice, Quot.sound
- `Elisa.Grouping.Fl.C154_grouping_refuted`: propext, Classical.choice, Quot.sound
- `Elisa.Grouping.Fl.C154_refuted`: propext, Classical.choice, Quot.sound
- `Elisa.Grouping.Fl.C154_deficit_refuted`: propext, Classical.choice, Quot.sound
- `Elisa.Grouping.Fl.C154_infinite_refuted`: propext, Classical.choice, Quot.sound
- `Elisa.Grouping.Fl.C154_equality_refuted`: propext, Classical.choice, Quot.sound
- `Elisa.Grouping.Fl.C154_last_refuted`: propext, Classical.choice, Quot.sound
- `Elisa.Infer.Fl.C155_pgstat`: propext, Classical.choice, Quot.sound
- `Elisa.Infer.Fl.C155_loss`: propext, Classical.choice, Quot.sound
- `Elisa.Infer.Fl.C155_practice`: propext, Classical.choice, Quot.sound
- `Elisa.Grouping.Fl.C156_grouping_partial`: propext, Classical.choice, Quot.sound
- `Elisa.Grouping.Fl.C156_poisson_refuted`: propext, Classical.choice, Quot.sound
- `Elisa.Grouping.Fl.C156_grouping_refuted`: propext, Classical.choice, Quot.sound
- `Elisa.Grouping.Fl.C156_refuses`: propext, Classical.choice, Quot.sound
- `Elisa.Grouping.Fl.C157_zeros`: propext, Classical.choice, Quot.sound
- `Elisa.Grouping.Fl.C157_interval_error_partial`: propext, Classical.choice, Quot.sound
- `Elisa.Grouping.Fl.C157_whole`: propext, Classical.choice, Quot.sound
- `Elisa.Grouping.Fl.C157_unit_ratio`: propext, Classical.choice, Quot.sound
- `Elisa.Grouping.Fl.C157_refuted`: propext, Classical.choice, Quot.sound
- `Elisa.Grouping.Fl.C157_ratio`: propext, Classical.choice, Quot.sound
- `Elisa.Grouping.Fl.C157_scale_partial`: propext, Classical.choice, Quot.sound
- `Elisa.Grouping.Fl.C157_gv_partial`: propext, Classical.choice, Quot.sound
- `Elisa.Grouping.Fl.C158_grouping_partial`: propext, Classical.choice, Quot.sound
- `Elisa.Grouping.Fl.C158_grouping_refuted`: propext, Classical.choice, Quot.sound
- `Elisa.Grouping.Fl.C158_refuses`: propext, Classical.choice, Quot.sound
- `Elisa.Grouping.Fl.C159_lima_partial`: propext, Classical.choice, Quot.sound
- `Elisa.Grouping.Fl.C159_gv_partial`: propext, Classical.choice, Quot.sound
- `Elisa.Grouping.Fl.C159_gv_refuted`: propext, Classical.choice, Quot.sound
- `Elisa.Grouping.Fl.C159_lima_refuses`: propext, Classical.choice, Quot.sound
- `Elisa.Grouping.Fl.C159_gv_refuses`: propext, Classical.choice, Quot.sound
- `Elisa.Grouping.Fl.C159_lima_computed_partial`: propext, Classical.choice, Quot.sound
- `Elisa.Grouping.Fl.C159_lima_unit_partial`: propext, Classical.choice, Quot.sound
- `Elisa.Data.C160_values`: propext, Classical.choice, Quot.sound
- `Elisa.Data.C160_resets`: propext, Classical.choice, Quot.sound
- `Elisa.Data.C160_systematics`: propext, Classical.choice, Quot.sound
- `Elisa.Data.C160_integer_partial`: propext, Classical.choice, Quot.sound
- `Elisa.Data.C160_zero_partial`: propext, Classical.choice, Quot.sound
- `Elisa.Data.C160_once`: propext, Classical.choice, Quot.sound
- `Elisa.Data.C160_integer_refuted`: propext, Classical.choice, Quot.sound
- `Elisa.Data.C160_zero_refuted`: propext, Classical.choice, Quot.sound
- `Elisa.Data.C160_file`: propext, Classical.choice, Quot.sound
- `Elisa.Data.C160_keyword_refuted`: propext, Classical.choice, Quot.sound
- `Elisa.Util.Replace.C161_one`: propext, Classical.choice, Quot.sound
- `Elisa.Util.Replace.C161_empty`: propext
- `Elisa.Util.Replace.C161_text_partial`: propext, Classical.choice, Quot.sound
- `Elisa.Util.Replace.C161_text_refuted`: propext, Quot.sound
- `Elisa.Util.Replace.C161_lists`: propext
- `Elisa.Util.Replace.C161_dict_partial`: propext, Quot.sound
- `Elisa.Util.Replace.C161_dict_refuted`: propext, Classical.choice, Quot.sound
- `Elisa.Util.Replace.C161_last`: propext, Classical.choice, Quot.sound
- `Elisa.Util.Replace.C161_absent`: propext, Quot.sound
- `Elisa.Grouping.Fl.C162_optsig_lima_partial`: propext, Classical.choice, Quot.sound
- `Elisa.Grouping.Fl.C162_sig_lima_partial`: propext, Classical.choice, Quot.sound
- `Elisa.Grouping.Fl.C162_optsig_gv_partial`: propext, Classical.choice, Quot.sound
- `Elisa.Grouping.Fl.C162_sig_gv_partial`: propext, Classical.choice, Quot.sound
- `Elisa.Grouping.Fl.C162_gv_refuted`: propext, Classical.choice, Quot.sound
- `Elisa.Grouping.Fl.C162_refuses`: propext, Classical.choice, Quot.sound
- `Elisa.Grouping.Fl.C162_optsig_lima_unit_partial`: propext, Classical.choice, Quot.sound
- `Elisa.Grouping.Fl.C162_sig_lima_unit_partial`: propext, Classical.choice, Quot.sound

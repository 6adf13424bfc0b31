# Axioms each manifest theorem depends on

Generated with `#print axioms` on every theorem named in MANIFEST.json. Only Lean's three standard axioms occur.

| property | theorem | axioms |
|---|---|---|
| C01 | `Danse.C01_schedule_produced` | propext, Classical.choice, Quot.sound |
| C01 | `Danse.C01_exactly_once` | propext, Classical.choice, Quot.sound |
| C01 | `Danse.C01_tie_break_independent` | propext, Classical.choice, Quot.sound |
| C02 | `Danse.C02_broadcasts_before_updates` | propext, Classical.choice, Quot.sound |
| C03 | `Danse.C03_tree_dependencies` | propext, Classical.choice, Quot.sound |
| C04 | `Danse.C04_turn_taken` | propext, Classical.choice, Quot.sound |
| C04 | `Danse.C04_round_robin` | propext, Classical.choice, Quot.sound |
| C05 | `Danse.C05_minimum_spacing` | propext, Classical.choice, Quot.sound |
| C06 | `Danse.C06_no_silent_skip` | propext, Classical.choice, Quot.sound |
| C07 | `Danse.C07_aligned_to_stamp` | propext, Classical.choice, Quot.sound |
| C07 | `Danse.C07_generated_instants` | propext, Classical.choice, Quot.sound |
| C07 | `Danse.C07_no_stamps` | propext, Classical.choice, Quot.sound |
| C08 | `Danse.C08_efficient_broadcast` | propext, Classical.choice, Quot.sound |
| C09 | `Danse.C09_terminates` | propext, Classical.choice, Quot.sound |
| C09 | `Danse.C09_round_robin_instants` | propext, Classical.choice, Quot.sound |
| C09 | `Danse.C09_lengths` | propext, Classical.choice, Quot.sound |
| C09 | `Danse.C09_tree_construction_can_fail` | propext, Classical.choice, Quot.sound |
| C10 | `Danse.C10_updater_is_root` | propext, Classical.choice, Quot.sound |
| C10 | `Danse.C10_updater_is_root_synchronous` | propext, Classical.choice, Quot.sound |
| C10 | `Danse.C10_refuted_for_updateEvery_two` | propext, Classical.choice, Quot.sound |
| C11 | `Danse.C11_whole_chunk` | propext, Classical.choice, Quot.sound |
| C11 | `Danse.C11_few_samples` | propext, Classical.choice, Quot.sound |
| C12 | `Danse.C12_whole_chunk` | propext, Classical.choice, Quot.sound |
| C12 | `Danse.C12_default_length` | propext, Classical.choice, Quot.sound |
| C12 | `Danse.C12_few_samples_iff` | propext, Classical.choice, Quot.sound |
| C12 | `Danse.C12_accepted_divides` | propext, Classical.choice, Quot.sound |
| C12 | `Danse.C12_zero_length` | propext, Classical.choice, Quot.sound |
| C12 | `Danse.C12_refuted_negative_accepted` | propext, Classical.choice, Quot.sound |
| C12 | `Danse.C12_refuted_unknown_type` | propext, Classical.choice, Quot.sound |
| C13 | `Danse.C13_divisors` | propext, Classical.choice, Quot.sound |
| C13 | `Danse.C13_refuted_sorted` | propext, Classical.choice, Quot.sound |
| C14 | `Danse.C14_idempotent` | propext, Classical.choice, Quot.sound |
| C14 | `Danse.C14_accepted_consistent` | propext, Classical.choice, Quot.sound |
| C14 | `Danse.C14_refusal` | propext, Classical.choice, Quot.sound |
| C14 | `Danse.C14_refuted_mode_iff_topology` | propext, Classical.choice, Quot.sound |
| C14 | `Danse.C14_refuted_sim_with_sros` | propext, Classical.choice, Quot.sound |
| C15 | `Danse.C15_fifo` | propext, Classical.choice, Quot.sound |
| C15 | `Danse.C15_chunk` | propext, Quot.sound |
| C15 | `Danse.C15_asymmetric_fails` | propext, Quot.sound |
| C16 | `Danse.C16_frame` | propext, Classical.choice, Quot.sound |
| C16 | `Danse.C16_runs_iff` | propext, Classical.choice, Quot.sound |
| C17 | `Danse.C17_flags_account` | propext, Classical.choice, Quot.sound |
| C17 | `Danse.C17_each_flag` | propext, Classical.choice, Quot.sound |
| C18 | `Danse.C18_centralised_slots` | propext, Classical.choice, Quot.sound |
| C18 | `Danse.C18_centralised_columns` | propext, Classical.choice, Quot.sound |
| C19 | `Danse.C19_broadcast` | propext, Classical.choice, Quot.sound |
| C19 | `Danse.C19_update_few_samples` | propext, Classical.choice, Quot.sound |
| C19 | `Danse.C19_update_whole_chunk` | propext, Classical.choice, Quot.sound |
| C19 | `Danse.C19_causal` | propext, Classical.choice, Quot.sound |
| C19 | `Danse.C19_scheduled` | propext, Classical.choice, Quot.sound |
| C19 | `Danse.C19_refuted_before_start` | propext, Classical.choice, Quot.sound |
| C20 | `Danse.C20_multiple` | propext, Quot.sound |
| C20 | `Danse.C20_partition` | propext, Classical.choice, Quot.sound |
| C21 | `Danse.C21_orientation` | propext, Classical.choice, Quot.sound |
| C21 | `Danse.C21_terminates` | propext, Classical.choice, Quot.sound |
| C21 | `Danse.C21_ordering_covers` | propext, Classical.choice, Quot.sound |
| C22 | `Danse.C22_in_network_sum` | propext, Classical.choice, Quot.sound |
| C22 | `Danse.C22_scheduled` | propext, Classical.choice, Quot.sound |
| C22 | `Danse.C22_refuted_without_overlap` | propext, Classical.choice, Quot.sound |
| C23 | `Danse.C23_counters` | propext, Classical.choice, Quot.sound |
| C23 | `Danse.C23_right_away` | propext, Classical.choice, Quot.sound |
| C23 | `Danse.C23_first_frame_basis` | propext, Classical.choice, Quot.sound |
| C23 | `Danse.C23_node_run` | propext, Classical.choice, Quot.sound |
| C23 | `Danse.C23_refuted_centralised` | propext, Classical.choice, Quot.sound |
| C24 | `Danse.C24_psd` | propext, Classical.choice, Quot.sound |
| C24 | `Danse.C24_psd_all_kinds` | propext, Classical.choice, Quot.sound |
| C24 | `Danse.C24_eye_init` | propext, Classical.choice, Quot.sound |
| C24 | `Danse.C24_refuted_random_init` | propext, Classical.choice, Quot.sound |
| C25 | `Danse.C25_not_before` | propext, Classical.choice, Quot.sound |
| C25 | `Danse.C25_starts` | propext, Classical.choice, Quot.sound |
| C25 | `Danse.C25_stays` | propext, Classical.choice, Quot.sound |
| C25 | `Danse.C25_batch_init` | propext, Classical.choice, Quot.sound |
| C26 | `Danse.C26_normal_equations` | propext, Classical.choice, Quot.sound |
| C26 | `Danse.C26_mmse` | propext, Classical.choice, Quot.sound |
| C26 | `Danse.C26_scale` | propext, Classical.choice, Quot.sound |
| C26 | `Danse.C26_extremes` | propext, Classical.choice, Quot.sound |
| C27 | `Danse.C27_full_rank` | propext, Classical.choice, Quot.sound |
| C27 | `Danse.C27_matching_rank` | propext, Classical.choice, Quot.sound |
| C27 | `Danse.C27_low_rank` | propext, Classical.choice, Quot.sound |
| C27 | `Danse.C27_rank_too_large` | propext, Classical.choice, Quot.sound |
| C27 | `Danse.C27_contract_satisfiable` | propext, Classical.choice, Quot.sound |
| C28 | `Danse.C28_tied` | propext, Quot.sound |
| C28 | `Danse.C28_only_reference` | propext, Quot.sound |
| C28 | `Danse.C28_single_sensor` | propext, Quot.sound |
| C28 | `Danse.C28_target_schedule` | propext, Quot.sound |
| C28 | `Danse.C28_spacing` | propext |
| C28 | `Danse.C28_hull` | propext, Classical.choice, Quot.sound |
| C28 | `Danse.C28_converges` | propext, Classical.choice, Quot.sound |
| C29 | `Danse.C29_normalised` | propext, Classical.choice, Quot.sound |
| C29 | `Danse.C29_idempotent` | propext, Classical.choice, Quot.sound |
| C29 | `Danse.C29_refuted_direction` | propext, Classical.choice, Quot.sound |
| C30 | `Danse.C30_additive` | propext, Classical.choice, Quot.sound |
| C30 | `Danse.C30_additive_whole` | propext, Classical.choice, Quot.sound |
| C30 | `Danse.C30_reproduces` | propext, Classical.choice, Quot.sound |
| C30 | `Danse.C30_mixture` | propext, Classical.choice, Quot.sound |
| C30 | `Danse.C30_refuted_speech_onset` | propext, Classical.choice, Quot.sound |
| C30 | `Danse.C30_adaptive` | propext, Classical.choice, Quot.sound |
| C31 | `Danse.C31_round_robin` | propext, Classical.choice, Quot.sound |
| C31 | `Danse.C31_simultaneous` | propext, Classical.choice, Quot.sound |
| C31 | `Danse.C31_counters` | propext, Classical.choice, Quot.sound |
| C31 | `Danse.C31_turns` | propext, Classical.choice, Quot.sound |
| C31 | `Danse.C31_broadcast` | propext, Classical.choice, Quot.sound |
| C31 | `Danse.C31_unknown_type` | propext, Classical.choice, Quot.sound |
| C32 | `Danse.C32_centralised_vad` | propext, Quot.sound |
| C32 | `Danse.C32_average` | propext, Classical.choice, Quot.sound |
| C33 | `Danse.C33_filtering` | propext, Classical.choice, Quot.sound |
| C33 | `Danse.C33_whole_chunk_identity` | propext, Classical.choice, Quot.sound |
| C33 | `Danse.C33_high_overlap_fails` | propext, Classical.choice, Quot.sound |
| C33 | `Danse.C33_output_gain` | propext, Classical.choice, Quot.sound |
| C34 | `Danse.C34_convolution` | propext, Classical.choice, Quot.sound |
| C34 | `Danse.C34_few_samples` | propext, Classical.choice, Quot.sound |
| C34 | `Danse.C34_conv_output` | propext, Classical.choice, Quot.sound |
| C34 | `Danse.C34_broadcast_newest` | propext, Classical.choice, Quot.sound |
| C34 | `Danse.C34_conv_output_late` | propext, Classical.choice, Quot.sound |
| C35 | `Danse.C35_accepts_iff` | propext, Classical.choice, Quot.sound |
| C35 | `Danse.C35_real` | propext, Classical.choice, Quot.sound |
| C35 | `Danse.C35_round_trip` | propext, Classical.choice, Quot.sound |
| C36 | `Danse.C36_neighbours` | propext, Classical.choice, Quot.sound |
| C36 | `Danse.C36_one_list_per_node` | propext, Classical.choice, Quot.sound |
| C36 | `Danse.C36_refuted_empty_last_node` | propext, Classical.choice, Quot.sound |
| C36 | `Danse.C36_fully_connected` | propext, Classical.choice, Quot.sound |
| C36 | `Danse.C36_ad_hoc` | propext, Classical.choice, Quot.sound |
| C36 | `Danse.C36_user_defined` | propext, Classical.choice, Quot.sound |
| C36 | `Danse.C36_unknown_rejected` | propext, Classical.choice, Quot.sound |
| C36 | `Danse.C36_refuted_connected` | propext, Classical.choice, Quot.sound |
| C37 | `Danse.C37_decisions` | propext, Classical.choice, Quot.sound |
| C37 | `Danse.C37_incomplete_inactive` | propext, Classical.choice, Quot.sound |
| C37 | `Danse.C37_length` | propext, Classical.choice, Quot.sound |
| C37 | `Danse.C37_refuted_one_per_complete_frame` | propext, Classical.choice, Quot.sound |
| C37 | `Danse.C37_no_vad` | propext, Classical.choice, Quot.sound |
| C38 | `Danse.C38_window_energy` | propext, Classical.choice, Quot.sound |
| C38 | `Danse.C38_threshold_monotone` | propext, Classical.choice, Quot.sound |
| C38 | `Danse.C38_refuted_short_window` | propext, Classical.choice, Quot.sound |
| C39 | `Danse.C39_length_and_clock` | propext, Classical.choice, Quot.sound |
| C39 | `Danse.C39_no_sro` | propext, Classical.choice, Quot.sound |
| C39 | `Danse.C39_refuted_one_sample` | propext, Classical.choice, Quot.sound |
| C40 | `Danse.C40_partition` | propext, Classical.choice, Quot.sound |
| C40 | `Danse.C40_block` | propext, Classical.choice, Quot.sound |
| C40 | `Danse.C40_sensor_owner` | propext, Classical.choice, Quot.sound |
| C40 | `Danse.C40_ref_mic` | propext, Classical.choice, Quot.sound |
| C40 | `Danse.C40_ref_mic_single_sensors` | propext, Classical.choice, Quot.sound |
| C40 | `Danse.C40_refuted_ref_mic` | propext |
| C41 | `Danse.C41_self_noise_snr` | propext, Classical.choice, Quot.sound |
| C41 | `Danse.C41_degenerate` | propext, Classical.choice, Quot.sound |
| C41 | `Danse.C41_mic_snr` | propext, Classical.choice, Quot.sound |
| C41 | `Danse.C41_dry_snr` | propext, Classical.choice, Quot.sound |
| C42 | `Danse.C42_exact_length` | propext, Classical.choice, Quot.sound |
| C42 | `Danse.C42_refuted_empty_source` | propext |
| C43 | `Danse.C43_no_silent_loss` | propext, Quot.sound |
| C43 | `Danse.C43_refusal` | propext, Classical.choice, Quot.sound |
| C43 | `Danse.C43_folder_after` | propext |
| C43 | `Danse.C43_failures` | propext, Quot.sound |
| C43 | `Danse.C43_refuted_overwrite_wipes` | propext |
| C44 | `Danse.C44_given` | propext, Classical.choice, Quot.sound |
| C44 | `Danse.C44_untouched` | propext, Classical.choice, Quot.sound |
| C44 | `Danse.C44_sections_known` | propext, Classical.choice, Quot.sound |
| C44 | `Danse.C44_unknown_list_rejected` | propext, Classical.choice, Quot.sound |
| C44 | `Danse.C44_refuted_unknown_name` | propext, Classical.choice, Quot.sound |
| C45 | `Danse.C45_equal_iff` | propext, Classical.choice, Quot.sound |
| C45 | `Danse.C45_refl` | propext, Classical.choice, Quot.sound |
| C45 | `Danse.C45_refuted_symmetric` | propext, Classical.choice, Quot.sound |
| C45 | `Danse.C45_refuted_symmetric_close` | propext, Classical.choice, Quot.sound |
| C46 | `Danse.C46_load_last_saved` | propext, Classical.choice, Quot.sound |
| C46 | `Danse.C46_roundtrip` | propext, Classical.choice, Quot.sound |
| C46 | `Danse.C46_save_frame` | propext, Quot.sound |
| C46 | `Danse.C46_refuted_json_save` | propext, Quot.sound |
| C46 | `Danse.C46_refuted_json_load` | propext, Classical.choice, Quot.sound |
| C46 | `Danse.C46_refuted_unknown_type` | propext, Classical.choice, Quot.sound |
| C47 | `Danse.C47_no_clipping` | propext, Classical.choice, Quot.sound |
| C47 | `Danse.C47_monotone` | propext, Classical.choice, Quot.sound |
| C47 | `Danse.C47_exact_iff` | propext, Classical.choice, Quot.sound |
| C47 | `Danse.C47_refuted_wraps` | propext, Classical.choice, Quot.sound |
| C47 | `Danse.C47_refuted_negative_signal` | propext, Classical.choice, Quot.sound |
| C47 | `Danse.C47_refuted_silence` | propext, Classical.choice, Quot.sound |
| C48 | `Danse.C48_refuted_gamma` | propext, Classical.choice, Quot.sound |
| C48 | `Danse.C48_refuted_hop` | propext, Classical.choice, Quot.sound |
| C48 | `Danse.C48_refuted_large_gamma` | propext, Classical.choice, Quot.sound |
| C48 | `Danse.C48_bounded` | propext, Classical.choice, Quot.sound |
| C49 | `Danse.C49_visits` | propext, Classical.choice, Quot.sound |
| C49 | `Danse.C49_starts` | propext, Classical.choice, Quot.sound |
| C49 | `Danse.C49_no_overlap_count` | propext, Classical.choice, Quot.sound |
| C49 | `Danse.C49_refuted_trailing_zero` | propext, Classical.choice, Quot.sound |
| C49 | `Danse.C49_refuted_index_error` | propext, Classical.choice, Quot.sound |
| C49 | `Danse.C49_refuted_time_stamps` | propext, Classical.choice, Quot.sound |
| C49 | `Danse.C49_refuted_snr` | propext, Classical.choice, Quot.sound |
| C50 | `Danse.C50_delay` | propext, Classical.choice, Quot.sound |
| C50 | `Danse.C50_refuted_read_is_stable` | propext, Classical.choice, Quot.sound |
| C51 | `Danse.C51_window` | propext, Classical.choice, Quot.sound |
| C51 | `Danse.C51_exact_shift` | propext, Classical.choice, Quot.sound |
| C51 | `Danse.C51_saturated` | propext, Classical.choice, Quot.sound |
| C51 | `Danse.C51_warns_once` | propext, Classical.choice, Quot.sound |
| C51 | `Danse.C51_shift_bounded` | propext, Classical.choice, Quot.sound |
| C51 | `Danse.C51_integer_offset` | propext, Classical.choice, Quot.sound |
| C51 | `Danse.C51_linear` | propext, Classical.choice, Quot.sound |
| C51 | `Danse.C51_refuted_full_block` | propext, Classical.choice, Quot.sound |
| C51 | `Danse.C51_fractional` | propext, Classical.choice, Quot.sound |
| C51 | `Danse.C51_round` | propext, Classical.choice, Quot.sound |
| C52 | `Danse.C52_simple_clamped` | propext, Classical.choice, Quot.sound |
| C52 | `Danse.C52_simple_integrates` | propext, Classical.choice, Quot.sound |
| C52 | `Danse.C52_imc_frozen` | propext, Classical.choice, Quot.sound |
| C52 | `Danse.C52_imc_reacts` | propext, Classical.choice, Quot.sound |
| C52 | `Danse.C52_imc_stable` | propext, Classical.choice, Quot.sound |
| C52 | `Danse.C52_refuted_imc_clamped` | propext, Classical.choice, Quot.sound |
| C52 | `Danse.C52_refuted_simple_hold` | propext, Classical.choice, Quot.sound |
| C53 | `Danse.C53_refines` | propext, Classical.choice, Quot.sound |
| C53 | `Danse.C53_initial_zero` | propext, Classical.choice, Quot.sound |
| C53 | `Danse.C53_refuted_long_frames` | propext, Classical.choice, Quot.sound |
| C53 | `Danse.C53_refuted_second_average_start` | propext, Quot.sound |
| C53 | `Danse.C53_derived` | propext, Classical.choice, Quot.sound |
| C54 | `Danse.C54_oracle` | propext, Classical.choice, Quot.sound |
| C54 | `Danse.C54_off` | propext, Classical.choice, Quot.sound |
| C54 | `Danse.C54_phase_only` | propext, Classical.choice, Quot.sound |
| C54 | `Danse.C54_is_delay` | propext, Classical.choice, Quot.sound |
| C54 | `Danse.C54_alignment` | propext, Classical.choice, Quot.sound |
| C55 | `Danse.C55_skip` | propext, Classical.choice, Quot.sound |
| C55 | `Danse.C55_channels_iff` | propext, Classical.choice, Quot.sound |
| C55 | `Danse.C55_centralised` | propext, Classical.choice, Quot.sound |
| C55 | `Danse.C55_centralised_no_flags` | propext, Classical.choice, Quot.sound |
| C55 | `Danse.C55_refuted_wrong_channels` | propext, Classical.choice, Quot.sound |
| C56 | `Danse.C56_filter_held` | propext, Classical.choice, Quot.sound |
| C56 | `Danse.C56_initial_filter` | propext, Classical.choice, Quot.sound |
| C56 | `Danse.C56_constant_inits` | propext, Classical.choice, Quot.sound |
| C56 | `Danse.C56_types` | propext, Classical.choice, Quot.sound |
| C56 | `Danse.C56_refuted_random_init` | propext, Classical.choice, Quot.sound |
| C57 | `Danse.C57_half_life` | propext, Classical.choice, Quot.sound |
| C58 | `Danse.C58_centralised` | propext, Classical.choice, Quot.sound |
| C58 | `Danse.C58_update` | propext, Classical.choice, Quot.sound |
| C58 | `Danse.C58_stays` | propext, Classical.choice, Quot.sound |
| C58 | `Danse.C58_never_fails` | propext, Classical.choice, Quot.sound |
| C59 | `Danse.C59_converges` | propext, Classical.choice, Quot.sound |
| C59 | `Danse.C59_outputs` | propext, Classical.choice, Quot.sound |
| C59 | `Danse.C59_error_decreases` | propext, Classical.choice, Quot.sound |
| C59 | `Danse.C59_single_sensor` | propext, Classical.choice, Quot.sound |
| C60 | `Danse.C60_output` | propext, Classical.choice, Quot.sound |
| C60 | `Danse.C60_round_robin` | propext, Classical.choice, Quot.sound |
| C60 | `Danse.C60_converges` | propext, Classical.choice, Quot.sound |
| C60 | `Danse.C60_error_decreases` | propext, Classical.choice, Quot.sound |
| C60 | `Danse.C60_refuted_default_init` | propext, Classical.choice, Quot.sound |
| C61 | `Danse.C61_end_first_utterance` | propext, Classical.choice, Quot.sound |
| C61 | `Danse.C61_beginning_second_utterance` | propext, Classical.choice, Quot.sound |
| C61 | `Danse.C61_beginning_first_utterance` | propext, Classical.choice, Quot.sound |
| C61 | `Danse.C61_refuted_single_utterance` | propext, Classical.choice, Quot.sound |
| C62 | `Danse.C62_loaded_is_computed` | propext, Classical.choice, Quot.sound |
| C62 | `Danse.C62_refuted_stale_file` | propext, Classical.choice, Quot.sound |
| C63 | `Danse.C63_signals` | propext, Classical.choice, Quot.sound |
| C63 | `Danse.C63_first_sensor` | propext, Classical.choice, Quot.sound |
| C63 | `Danse.C63_other_sensors` | propext, Classical.choice, Quot.sound |
| C63 | `Danse.C63_refuted_second_sensor` | propext, Classical.choice, Quot.sound |
| C63 | `Danse.C63_refuted_diffuse_with_sro` | propext, Classical.choice, Quot.sound |
| C63 | `Danse.C63_total` | propext, Classical.choice, Quot.sound |
| C64 | `Danse.C64_regular_pauses` | propext, Classical.choice, Quot.sound |
| C65 | `Danse.C65_refuted_isolation_all_agree` | propext |
| C65 | `Danse.C65_refuted_isolation` | propext, Classical.choice, Quot.sound |
| C65 | `Danse.C65_load_effect` | propext, Quot.sound |
| C66 | `Danse.C66_snr_value` | propext, Classical.choice, Quot.sound |
| C66 | `Danse.C66_local_centralised_value` | propext, Classical.choice, Quot.sound |
| C66 | `Danse.C66_default_end` | propext, Classical.choice, Quot.sound |
| C66 | `Danse.C66_diff` | propext, Classical.choice, Quot.sound |
| C66 | `Danse.C66_common_gain` | propext, Classical.choice, Quot.sound |
| C66 | `Danse.C66_monotone` | propext, Classical.choice, Quot.sound |
| C66 | `Danse.C66_refuted_local_centralised_diff` | propext, Classical.choice, Quot.sound |
| C67 | `Danse.C67_defined` | propext, Classical.choice, Quot.sound |
| C67 | `Danse.C67_exact_on_parabola` | propext, Classical.choice, Quot.sound |
| C67 | `Danse.C67_sro_range` | propext, Classical.choice, Quot.sound |
| C67 | `Danse.C67_refuted_max_sro` | propext, Classical.choice, Quot.sound |
| C67 | `Danse.C67_sto_range` | propext, Classical.choice, Quot.sound |
| C67 | `Danse.C67_refuted_tdoa` | propext, Classical.choice, Quot.sound |
| C68 | `Danse.C68_unit` | propext, Classical.choice, Quot.sound |
| C68 | `Danse.C68_level_invariant` | propext, Classical.choice, Quot.sound |
| C68 | `Danse.C68_swap` | propext, Classical.choice, Quot.sound |
| C68 | `Danse.C68_refuted_quiet` | propext, Classical.choice, Quot.sound |
| C68 | `Danse.C68_average` | propext, Classical.choice, Quot.sound |
| C69 | `Danse.C69_reference_delayed` | propext, Classical.choice, Quot.sound |
| C69 | `Danse.C69_aligned` | propext, Classical.choice, Quot.sound |
| C69 | `Danse.C69_refuted_input_unchanged` | propext, Classical.choice, Quot.sound |
| C69 | `Danse.C69_refuted_returned_frame_stable` | propext, Classical.choice, Quot.sound |
| C69 | `Danse.C69_feedback` | propext, Classical.choice, Quot.sound |
| C70 | `Danse.C70_coherence` | propext, Classical.choice, Quot.sound |
| C70 | `Danse.C70_coherence_centralised` | propext, Classical.choice, Quot.sound |
| C70 | `Danse.C70_schedule` | propext, Quot.sound |
| C70 | `Danse.C70_runs` | propext, Classical.choice, Quot.sound |
| C70 | `Danse.C70_refuted_accepted_options` | propext, Classical.choice, Quot.sound |
| C70 | `Danse.C70_refuted_closed_loop` | propext, Classical.choice, Quot.sound |
| C70 | `Danse.C70_refuted_between_estimates` | propext, Classical.choice, Quot.sound |
| C71 | `Danse.C71_unit` | propext, Classical.choice, Quot.sound |
| C71 | `Danse.C71_impulse` | propext, Classical.choice, Quot.sound |
| C71 | `Danse.C71_gs` | propext, Classical.choice, Quot.sound |
| C71 | `Danse.C71_gs_search_exists` | propext, Classical.choice, Quot.sound |
| C71 | `Danse.C71_real` | propext, Classical.choice, Quot.sound |
| C71 | `Danse.C71_steady` | propext, Classical.choice, Quot.sound |
| C71 | `Danse.C71_average` | propext, Classical.choice, Quot.sound |
| C71 | `Danse.C71_ls` | propext, Classical.choice, Quot.sound |
| C71 | `Danse.C71_refuted_ls_exact` | propext, Classical.choice, Quot.sound |
| C72 | `Danse.C72_causal` | propext, Classical.choice, Quot.sound |
| C72 | `Danse.C72_output` | propext, Classical.choice, Quot.sound |
| C73 | `Danse.C73_component` | propext, Classical.choice, Quot.sound |
| C73 | `Danse.C73_neighbours` | propext, Classical.choice, Quot.sound |
| C74 | `Danse.C74_refuted_conv_uses_neighbours` | propext, Classical.choice, Quot.sound |
| C75 | `Danse.C75_gain` | propext, Classical.choice, Quot.sound |
| C75 | `Danse.C75_passthrough` | propext, Classical.choice, Quot.sound |
| C76 | `Danse.C76_delivery` | propext, Classical.choice, Quot.sound |
| C76 | `Danse.C76_frame` | propext, Classical.choice, Quot.sound |
| C77 | `Danse.C77_rows` | propext, Classical.choice, Quot.sound |
| C77 | `Danse.C77_written` | propext, Classical.choice, Quot.sound |
| C77 | `Danse.C77_observed` | propext, Classical.choice, Quot.sound |
| C78 | `Danse.C78_schedule` | propext, Classical.choice, Quot.sound |
| C78 | `Danse.C78_passthrough` | propext, Classical.choice, Quot.sound |
| C78 | `Danse.C78_neighbour_frame` | propext, Classical.choice, Quot.sound |
| C79 | `Danse.C79_accuracy` | propext, Classical.choice, Quot.sound |
| C79 | `Danse.C79_exact` | propext, Classical.choice, Quot.sound |
| C79 | `Danse.C79_jitter` | propext, Classical.choice, Quot.sound |
| C79 | `Danse.C79_simultaneous` | propext, Classical.choice, Quot.sound |
| C79 | `Danse.C79_refuted_48kHz` | propext, Classical.choice, Quot.sound |
| C79 | `Danse.C79_refuted_frames_in_step` | propext, Classical.choice, Quot.sound |
| C79 | `Danse.C79_refuted_small_sro` | propext, Classical.choice, Quot.sound |
| C79 | `Danse.C79_refuted_reference_index` | propext, Classical.choice, Quot.sound |
| C80 | `Danse.C80_completes` | propext, Classical.choice, Quot.sound |
| C80 | `Danse.C80_given` | propext, Classical.choice, Quot.sound |
| C80 | `Danse.C80_flags` | propext, Classical.choice, Quot.sound |
| C81 | `Danse.C81_run` | propext, Classical.choice, Quot.sound |
| C81 | `Danse.C81_topology` | propext, Classical.choice, Quot.sound |
| C81 | `Danse.C81_unique` | propext, Classical.choice, Quot.sound |
| C82 | `Danse.C82_schedule` | propext, Classical.choice, Quot.sound |
| C82 | `Danse.C82_run` | propext, Classical.choice, Quot.sound |
| C82 | `Danse.C82_topology` | propext, Classical.choice, Quot.sound |
| C83 | `Danse.C83_few` | propext, Classical.choice, Quot.sound |
| C83 | `Danse.C83_whole` | propext, Classical.choice, Quot.sound |
| C84 | `Danse.C84_completes` | propext, Classical.choice, Quot.sound |
| C84 | `Danse.C84_default_filters_refuted` | propext, Classical.choice, Quot.sound |
| C84 | `Danse.C84_short_chunks_refuted` | propext, Classical.choice, Quot.sound |
| C84 | `Danse.C84_long_chunks_refuted` | propext, Classical.choice, Quot.sound |
| C85 | `Danse.C85_additive` | propext, Classical.choice, Quot.sound |
| C85 | `Danse.C85_additive_whole` | propext, Classical.choice, Quot.sound |
| C85 | `Danse.C85_reproduces` | propext, Classical.choice, Quot.sound |
| C85 | `Danse.C85_mixture` | propext, Classical.choice, Quot.sound |
| C85 | `Danse.C85_few_ignores_weight` | propext, Classical.choice, Quot.sound |
| C85 | `Danse.C85_whole_chunk_refuted` | propext, Classical.choice, Quot.sound |
| C85 | `Danse.C85_whole_uses_weight` | propext, Classical.choice, Quot.sound |
| C86 | `Danse.C86_observation` | propext, Classical.choice, Quot.sound |
| C86 | `Danse.C86_single_sensor` | propext, Classical.choice, Quot.sound |
| C86 | `Danse.C86_flags` | propext, Classical.choice, Quot.sound |
| C86 | `Danse.C86_one_sensor` | propext, Classical.choice, Quot.sound |
| C87 | `Danse.C87_whole_chunk` | propext, Classical.choice, Quot.sound |
| C87 | `Danse.C87_schedule_efficient` | propext, Classical.choice, Quot.sound |
| C87 | `Danse.C87_efficient` | propext, Classical.choice, Quot.sound |
| C88 | `Danse.C88_additive` | propext, Classical.choice, Quot.sound |
| C89 | `Danse.C89_options_only_add` | propext, Classical.choice, Quot.sound |
| C89 | `Danse.C89_independent` | propext, Classical.choice, Quot.sound |
| C90 | `Danse.C90_refuted_few_samples` | propext, Classical.choice, Quot.sound |
| C90 | `Danse.C90_refuted_sro_compensation` | propext, Classical.choice, Quot.sound |
| C90 | `Danse.C90_refuted_without_centralised` | propext, Classical.choice, Quot.sound |
| C90 | `Danse.C90_refuted_conv_own_sensors` | propext, Classical.choice, Quot.sound |
| C90 | `Danse.C90_refuted_nothing_to_send` | propext, Classical.choice, Quot.sound |
| C91 | `Danse.C91_select` | propext, Classical.choice, Quot.sound |
| C92 | `Danse.C92_schedule` | propext, Classical.choice, Quot.sound |
| C92 | `Danse.C92_run` | propext, Classical.choice, Quot.sound |
| C92 | `Danse.C92_heard` | propext, Classical.choice, Quot.sound |
| C92 | `Danse.C92_aligned` | propext, Classical.choice, Quot.sound |
| C92 | `Danse.C92_misaligned_refuted` | propext, Classical.choice, Quot.sound |
| C92 | `Danse.C92_undivided_refuted` | propext, Classical.choice, Quot.sound |
| C93 | `Danse.C93_tree` | propext, Classical.choice, Quot.sound |
| C93 | `Danse.C93_total` | propext, Classical.choice, Quot.sound |
| C93 | `Danse.C93_colocated_refuted` | propext, Classical.choice, Quot.sound |
| C93 | `Danse.C93_colocated_silent` | propext, Classical.choice, Quot.sound |
| C93 | `Danse.C93_disconnected` | propext, Classical.choice, Quot.sound |
| C93 | `Danse.C93_topology` | propext, Classical.choice, Quot.sound |
| C93 | `Danse.C93_user_root` | propext, Classical.choice, Quot.sound |
| C93 | `Danse.C93_snr_root` | propext, Classical.choice, Quot.sound |
| C93 | `Danse.C93_snr_root_refuted` | propext, Classical.choice, Quot.sound |
| C94 | `Danse.C94_bounded` | propext, Classical.choice, Quot.sound |
| C94 | `Danse.C94_too_short` | propext, Classical.choice, Quot.sound |
| C94 | `Danse.C94_min_duration` | propext, Classical.choice, Quot.sound |
| C94 | `Danse.C94_short_refuted` | propext, Classical.choice, Quot.sound |
| C94 | `Danse.C94_shape` | propext, Classical.choice, Quot.sound |
| C94 | `Danse.C94_mask` | propext, Classical.choice, Quot.sound |
| C94 | `Danse.C94_identical` | propext, Classical.choice, Quot.sound |
| C94 | `Danse.C94_identical_reached` | propext, Classical.choice, Quot.sound |
| C94 | `Danse.C94_gain` | propext, Classical.choice, Quot.sound |
| C94 | `Danse.C94_plain` | propext, Classical.choice, Quot.sound |
| C94 | `Danse.C94_extended` | propext, Classical.choice, Quot.sound |
| C95 | `Danse.C95_schedule` | propext, Classical.choice, Quot.sound |
| C95 | `Danse.C95_completes` | propext, Classical.choice, Quot.sound |
| C95 | `Danse.C95_flags` | propext, Classical.choice, Quot.sound |
| C95 | `Danse.C95_drift` | propext, Classical.choice, Quot.sound |
| C95 | `Danse.C95_frame` | propext, Classical.choice, Quot.sound |
| C95 | `Danse.C95_completes_iff` | propext, Classical.choice, Quot.sound |
| C95 | `Danse.C95_no_overlap` | propext, Classical.choice, Quot.sound |
| C96 | `Danse.C96_linear` | propext, Classical.choice, Quot.sound |
| C96 | `Danse.C96_linear_spacing_refuted` | propext, Classical.choice, Quot.sound |
| C96 | `Danse.C96_radius` | propext, Classical.choice, Quot.sound |
| C96 | `Danse.C96_grid` | propext, Classical.choice, Quot.sound |
| C96 | `Danse.C96_errors` | propext, Classical.choice, Quot.sound |
| C96 | `Danse.C96_random_rotation` | propext, Classical.choice, Quot.sound |
| C96 | `Danse.C96_turn` | propext, Classical.choice, Quot.sound |
| C96 | `Danse.C96_turn_nan` | propext, Classical.choice, Quot.sound |
| C97 | `Danse.C97_line` | propext, Classical.choice, Quot.sound |
| C97 | `Danse.C97_line_refuted` | propext, Classical.choice, Quot.sound |
| C97 | `Danse.C97_line_default_refuted` | propext, Classical.choice, Quot.sound |
| C97 | `Danse.C97_spinning_top` | propext, Classical.choice, Quot.sound |
| C97 | `Danse.C97_spinning_top_sensors` | propext, Classical.choice, Quot.sound |
| C97 | `Danse.C97_spinning_top_sources_refuted` | propext, Classical.choice, Quot.sound |
| C97 | `Danse.C97_three_sources_refuted` | propext, Classical.choice, Quot.sound |
| C97 | `Danse.C97_vertical_refuted` | propext, Classical.choice, Quot.sound |
| C97 | `Danse.C97_vertical_never_refuted` | propext, Classical.choice, Quot.sound |
| C97 | `Danse.C97_circle` | propext, Classical.choice, Quot.sound |
| C97 | `Danse.C97_inter_node_refuted` | propext, Classical.choice, Quot.sound |
| C97 | `Danse.C97_random` | propext, Classical.choice, Quot.sound |
| C97 | `Danse.C97_random_sensors` | propext, Classical.choice, Quot.sound |
| C97 | `Danse.C97_random_sensors_refuted` | propext, Classical.choice, Quot.sound |
| C97 | `Danse.C97_rirs` | propext, Classical.choice, Quot.sound |
| C97 | `Danse.C97_no_noise_refuted` | propext, Classical.choice, Quot.sound |
| C98 | `Danse.C98_frames` | propext, Classical.choice, Quot.sound |
| C98 | `Danse.C98_too_short` | propext, Classical.choice, Quot.sound |
| C98 | `Danse.C98_output` | propext, Classical.choice, Quot.sound |
| C98 | `Danse.C98_output_ti` | propext, Classical.choice, Quot.sound |
| C98 | `Danse.C98_centralised` | propext, Classical.choice, Quot.sound |
| C98 | `Danse.C98_pass_through` | propext, Classical.choice, Quot.sound |
| C98 | `Danse.C98_rectangular` | propext, Classical.choice, Quot.sound |
| C98 | `Danse.C98_lost` | propext, Classical.choice, Quot.sound |
| C98 | `Danse.C98_additive` | propext, Classical.choice, Quot.sound |
| C98 | `Danse.C98_total` | propext, Classical.choice, Quot.sound |
| C98 | `Danse.C98_total_ti` | propext, Classical.choice, Quot.sound |
| C98 | `Danse.C98_refuted_exact_fit` | propext, Classical.choice, Quot.sound |
| C98 | `Danse.C98_refuted_exact_fit_ti` | propext, Classical.choice, Quot.sound |
| C98 | `Danse.C98_refuted_two_frames` | propext, Classical.choice, Quot.sound |
| C98 | `Danse.C98_vad_frames` | propext, Classical.choice, Quot.sound |
| C98 | `Danse.C98_refuted_no_overlap` | propext, Classical.choice, Quot.sound |
| C98 | `Danse.C98_converges` | propext, Classical.choice, Quot.sound |
| C99 | `Danse.C99_output` | propext, Classical.choice, Quot.sound |
| C99 | `Danse.C99_total` | propext, Classical.choice, Quot.sound |
| C99 | `Danse.C99_is_centralised` | propext, Classical.choice, Quot.sound |
| C99 | `Danse.C99_adds_up` | propext, Classical.choice, Quot.sound |
| C99 | `Danse.C99_cost` | propext, Classical.choice, Quot.sound |
| C99 | `Danse.C99_cost_whole` | propext, Classical.choice, Quot.sound |
| C99 | `Danse.C99_refuted_comparison` | propext, Classical.choice, Quot.sound |
| C100 | `Danse.C100_snr` | propext, Classical.choice, Quot.sound |
| C100 | `Danse.C100_sisnr` | propext, Classical.choice, Quot.sound |
| C100 | `Danse.C100_fwsnrseg` | propext, Classical.choice, Quot.sound |
| C100 | `Danse.C100_stoi` | propext, Classical.choice, Quot.sound |
| C100 | `Danse.C100_pesq` | propext, Classical.choice, Quot.sound |
| C100 | `Danse.C100_pesq_other_rates` | propext, Classical.choice, Quot.sound |
| C100 | `Danse.C100_refuted_short_window` | propext, Classical.choice, Quot.sound |
| C100 | `Danse.C100_independent` | propext, Classical.choice, Quot.sound |
| C100 | `Danse.C100_refuted_no_vad` | propext, Classical.choice, Quot.sound |
| C100 | `Danse.C100_total` | propext, Classical.choice, Quot.sound |
| C100 | `Danse.C100_refuted_dynamic` | propext, Classical.choice, Quot.sound |
| C100 | `Danse.C100_window` | propext, Classical.choice, Quot.sound |
| C100 | `Danse.C100_nodes` | propext, Classical.choice, Quot.sound |
| C100 | `Danse.C100_refuted_no_best` | propext, Classical.choice, Quot.sound |
| C100 | `Danse.C100_refuted_batch` | propext, Classical.choice, Quot.sound |
| C100 | `Danse.C100_batch_window` | propext, Classical.choice, Quot.sound |
| C100 | `Danse.C100_refuted_pesq_best` | propext, Classical.choice, Quot.sound |
| C100 | `Danse.C100_refuted_pesq_ssbc` | propext, Classical.choice, Quot.sound |
| C101 | `Danse.C101_value` | propext, Classical.choice, Quot.sound |
| C101 | `Danse.C101_low_rate` | propext, Classical.choice, Quot.sound |
| C101 | `Danse.C101_weights` | propext |
| C101 | `Danse.C101_mean` | propext, Classical.choice, Quot.sound |
| C101 | `Danse.C101_gain` | propext, Classical.choice, Quot.sound |
| C101 | `Danse.C101_refuted_bands` | propext, Classical.choice, Quot.sound |
| C101 | `Danse.C101_section` | propext, Classical.choice, Quot.sound |
| C102 | `Danse.C102_value` | propext, Classical.choice, Quot.sound |
| C102 | `Danse.C102_refuted_one_frame` | propext, Classical.choice, Quot.sound |
| C102 | `Danse.C102_range` | propext, Classical.choice, Quot.sound |
| C102 | `Danse.C102_local` | propext, Classical.choice, Quot.sound |
| C102 | `Danse.C102_gain` | propext, Classical.choice, Quot.sound |
| C102 | `Danse.C102_identical` | propext, Classical.choice, Quot.sound |
| C102 | `Danse.C102_refuted_low_rate` | propext, Classical.choice, Quot.sound |
| C103 | `Danse.C103_verify` | propext, Classical.choice, Quot.sound |
| C103 | `Danse.C103_nodes` | propext, Classical.choice, Quot.sound |
| C103 | `Danse.C103_one_reference` | propext, Classical.choice, Quot.sound |
| C103 | `Danse.C103_delays` | propext, Classical.choice, Quot.sound |
| C103 | `Danse.C103_reachable` | propext, Quot.sound |
| C103 | `Danse.C103_refuted_root_again` | propext, Quot.sound |
| C104 | `Danse.C104_exists` | propext, Quot.sound |
| C104 | `Danse.C104_online` | propext, Classical.choice, Quot.sound |
| C104 | `Danse.C104_parallel` | propext, Classical.choice, Quot.sound |
| C104 | `Danse.C104_agree` | propext, Classical.choice, Quot.sound |
| C104 | `Danse.C104_refuted_root_again` | propext, Classical.choice, Quot.sound |
| C104 | `Danse.C104_refuted_alignment` | propext, Quot.sound |
| C105 | `Danse.C105_value` | propext, Classical.choice, Quot.sound |
| C105 | `Danse.C105_refuted_delay` | propext, Classical.choice, Quot.sound |
| C106 | `Danse.C106_columns` | propext, Classical.choice, Quot.sound |
| C106 | `Danse.C106_values` | propext, Classical.choice, Quot.sound |
| C106 | `Danse.C106_fc` | propext, Classical.choice, Quot.sound |
| C106 | `Danse.C106_ti` | propext, Classical.choice, Quot.sound |
| C106 | `Danse.C106_converged` | propext, Classical.choice, Quot.sound |
| C106 | `Danse.C106_refuted_timing` | propext, Classical.choice, Quot.sound |
| C106 | `Danse.C106_refuted_parts` | propext, Classical.choice, Quot.sound |
| C107 | `Danse.C107_argument` | propext, Classical.choice, Quot.sound |
| C107 | `Danse.C107_refuted_type_error` | propext, Classical.choice, Quot.sound |
| C107 | `Danse.C107_refuted_type_error_ti` | propext, Classical.choice, Quot.sound |
| C107 | `Danse.C107_refuted_never` | propext, Classical.choice, Quot.sound |
| C108 | `Danse.C108_recorded` | propext, Quot.sound |
| C108 | `Danse.C108_off` | propext |
| C108 | `Danse.C108_setting` | propext, Classical.choice, Quot.sound |
| C109 | `Danse.C109_first_mic` | propext, Classical.choice, Quot.sound |
| C109 | `Danse.C109_one_source` | propext, Classical.choice, Quot.sound |
| C109 | `Danse.C109_several` | propext, Classical.choice, Quot.sound |
| C109 | `Danse.C109_refuted_other_mics` | propext, Classical.choice, Quot.sound |
| C109 | `Danse.C109_dry` | propext, Classical.choice, Quot.sound |
| C109 | `Danse.C109_refuted_dry` | propext, Classical.choice, Quot.sound |
| C109 | `Danse.C109_decay` | propext, Classical.choice, Quot.sound |
| C109 | `Danse.C109_dirac` | propext, Classical.choice, Quot.sound |
| C109 | `Danse.C109_total` | propext, Classical.choice, Quot.sound |
| C110 | `Danse.C110_replaced` | propext, Classical.choice, Quot.sound |
| C110 | `Danse.C110_refuted_sensor_zero` | propext |
| C110 | `Danse.C110_refuted_components` | propext, Classical.choice, Quot.sound |
| C110 | `Danse.C110_added` | propext, Classical.choice, Quot.sound |
| C111 | `Danse.C111_selected` | propext, Classical.choice, Quot.sound |
| C111 | `Danse.C111_candidates` | propext, Classical.choice, Quot.sound |
| C111 | `Danse.C111_kept` | propext |
| C111 | `Danse.C111_right_rate` | propext, Classical.choice, Quot.sound |
| C111 | `Danse.C111_refuted_rate` | propext, Classical.choice, Quot.sound |
| C112 | `Danse.C112_aligned` | propext, Classical.choice, Quot.sound |
| C112 | `Danse.C112_iff` | propext, Classical.choice, Quot.sound |
| C112 | `Danse.C112_refuted_random_signals` | propext, Classical.choice, Quot.sound |
| C112 | `Danse.C112_offsets` | propext, Classical.choice, Quot.sound |
| C113 | `Danse.C113_rows` | propext, Classical.choice, Quot.sound |
| C113 | `Danse.C113_left_over` | propext, Classical.choice, Quot.sound |
| C113 | `Danse.C113_refuted_last_row` | propext, Classical.choice, Quot.sound |
| C113 | `Danse.C113_rows_ti` | propext, Classical.choice, Quot.sound |
| C113 | `Danse.C113_too_short` | propext, Quot.sound |
| C113 | `Danse.C113_batch` | propext, Classical.choice, Quot.sound |
| C114 | `Danse.C114_few_samples` | propext, Classical.choice, Quot.sound |
| C114 | `Danse.C114_whole_chunk` | propext, Classical.choice, Quot.sound |
| C114 | `Danse.C114_refuted_whole_chunk` | propext, Classical.choice, Quot.sound |
| C114 | `Danse.C114_few_samples_ti` | propext, Classical.choice, Quot.sound |
| C114 | `Danse.C114_whole_chunk_ti` | propext, Classical.choice, Quot.sound |
| C114 | `Danse.C114_refuted_whole_chunk_ti` | propext, Classical.choice, Quot.sound |
| C115 | `Danse.C115_oracle` | propext, Classical.choice, Quot.sound |
| C115 | `Danse.C115_refuted_closed_loop` | propext, Classical.choice, Quot.sound |
| C115 | `Danse.C115_open_loop` | propext, Classical.choice, Quot.sound |
| C116 | `Danse.C116_estimates` | propext, Classical.choice, Quot.sound |
| C116 | `Danse.C116_drift` | propext, Classical.choice, Quot.sound |
| C116 | `Danse.C116_refuted_flags` | propext, Classical.choice, Quot.sound |
| C116 | `Danse.C116_refuted_refilter` | propext, Classical.choice, Quot.sound |
| C116 | `Danse.C116_refuted_early` | propext, Classical.choice, Quot.sound |
| C116 | `Danse.C116_total` | propext, Classical.choice, Quot.sound |
| C116 | `Danse.C116_silence` | propext, Classical.choice, Quot.sound |
| C117 | `Danse.C117_instance` | propext, Classical.choice, Quot.sound |
| C117 | `Danse.C117_rows` | propext, Classical.choice, Quot.sound |
| C117 | `Danse.C117_wiener` | propext, Classical.choice, Quot.sound |
| C117 | `Danse.C117_broadcast` | propext, Classical.choice, Quot.sound |
| C117 | `Danse.C117_relaxed` | propext, Classical.choice, Quot.sound |
| C117 | `Danse.C117_posdef` | propext, Classical.choice, Quot.sound |
| C117 | `Danse.C117_completes` | propext, Classical.choice, Quot.sound |
| C117 | `Danse.C117_completes_gevd` | propext, Classical.choice, Quot.sound |
| C117 | `Danse.C117_starts` | propext, Classical.choice, Quot.sound |
| C118 | `Danse.C118_roundtrip` | propext, Classical.choice, Quot.sound |
| C118 | `Danse.C118_unset` | propext, Quot.sound |
| C118 | `Danse.C118_refuted_array` | propext, Classical.choice, Quot.sound |
| C118 | `Danse.C118_refuted_string` | propext, Classical.choice, Quot.sound |
| C119 | `Danse.C119_instance` | propext, Classical.choice, Quot.sound |
| C119 | `Danse.C119_rows` | propext, Classical.choice, Quot.sound |
| C119 | `Danse.C119_started` | propext, Classical.choice, Quot.sound |
| C119 | `Danse.C119_wiener` | propext, Classical.choice, Quot.sound |
| C119 | `Danse.C119_refuted_normalised` | propext, Classical.choice, Quot.sound |
| C119 | `Danse.C119_refuted_default` | propext, Classical.choice, Quot.sound |
| C119 | `Danse.C119_external` | propext, Classical.choice, Quot.sound |
| C119 | `Danse.C119_times` | propext, Classical.choice, Quot.sound |
| C119 | `Danse.C119_topology` | propext, Classical.choice, Quot.sound |
| C119 | `Danse.C119_completes` | propext, Classical.choice, Quot.sound |
| C119 | `Danse.C119_completes_gevd` | propext, Classical.choice, Quot.sound |
| C120 | `Danse.C120_resume` | propext, Classical.choice, Quot.sound |
| C120 | `Danse.C120_kept` | propext, Classical.choice, Quot.sound |
| C120 | `Danse.C120_ends` | propext, Quot.sound |
| C120 | `Danse.C120_refuted_incomplete` | propext, Classical.choice, Quot.sound |
| C120 | `Danse.C120_refuted_parameters` | propext, Classical.choice, Quot.sound |
| C120 | `Danse.C120_refuted_no_plot` | propext, Classical.choice, Quot.sound |
| C120 | `Danse.C120_refuted_no_plot_stops` | propext, Classical.choice, Quot.sound |
| C120 | `Danse.C120_refuted_declined` | none |
| C120 | `Danse.C120_refuted_names` | none |
| C120 | `Danse.C120_names` | propext, Classical.choice, Quot.sound |
| C120 | `Danse.C120_refuted_rounding` | propext, Classical.choice, Quot.sound |
| C121 | `Danse.C121_level` | propext, Classical.choice, Quot.sound |
| C121 | `Danse.C121_exception` | propext, Classical.choice, Quot.sound |
| C121 | `Danse.C121_adapted` | propext, Classical.choice, Quot.sound |
| C121 | `Danse.C121_rule` | propext, Classical.choice, Quot.sound |
| C121 | `Danse.C121_rule_gevd` | propext, Classical.choice, Quot.sound |
| C121 | `Danse.C121_refuted_default` | propext, Classical.choice, Quot.sound |
| C122 | `Danse.C122_level` | propext, Classical.choice, Quot.sound |
| C122 | `Danse.C122_exception` | propext, Classical.choice, Quot.sound |
| C122 | `Danse.C122_adapted` | propext, Classical.choice, Quot.sound |
| C122 | `Danse.C122_refuted_default` | propext, Classical.choice, Quot.sound |
| C123 | `Danse.C123_isolated` | propext, Classical.choice, Quot.sound |
| C124 | `Danse.C124_redundant` | propext, Classical.choice, Quot.sound |
| C124 | `Danse.C124_dead_sensor` | propext, Classical.choice, Quot.sound |
| C124 | `Danse.C124_twin_sensors` | propext, Classical.choice, Quot.sound |
| C124 | `Danse.C124_dead_node` | propext, Classical.choice, Quot.sound |
| C125 | `Danse.C125_gains` | propext, Classical.choice, Quot.sound |
| C125 | `Danse.C125_same_output` | propext, Classical.choice, Quot.sound |
| C125 | `Danse.C125_exception` | propext, Classical.choice, Quot.sound |
| C125 | `Danse.C125_rank` | propext, Classical.choice, Quot.sound |
| C125 | `Danse.C125_rule` | propext, Classical.choice, Quot.sound |
| C125 | `Danse.C125_rule_gevd` | propext, Classical.choice, Quot.sound |
| C125 | `Danse.C125_refuted_default` | propext, Classical.choice, Quot.sound |
| C126 | `Danse.C126_ends_like_run` | propext, Classical.choice, Quot.sound |
| C126 | `Danse.C126_adds_up` | propext, Classical.choice, Quot.sound |
| C126 | `Danse.C126_ends_whole` | propext, Classical.choice, Quot.sound |
| C126 | `Danse.C126_refuted_batch` | propext, Classical.choice, Quot.sound |
| C126 | `Danse.C126_ti_pruned_again` | propext, Classical.choice, Quot.sound |
| C126 | `Danse.C126_ti_same_schedule` | propext, Classical.choice, Quot.sound |
| C126 | `Danse.C126_ti_ends_like_run` | propext, Classical.choice, Quot.sound |
| C126 | `Danse.C126_ti_adds_up` | propext, Classical.choice, Quot.sound |
| C126 | `Danse.C126_ti_sync` | propext, Classical.choice, Quot.sound |
| C126 | `Danse.C126_ti_completes` | propext, Classical.choice, Quot.sound |
| C126 | `Danse.C126_refuted_efficient` | propext, Classical.choice, Quot.sound |
| C127 | `Danse.C127_best` | propext, Classical.choice, Quot.sound |
| C127 | `Danse.C127_beats_sensor` | propext, Classical.choice, Quot.sound |
| C127 | `Danse.C127_beats_local` | propext, Classical.choice, Quot.sound |
| C127 | `Danse.C127_ti_best` | propext, Classical.choice, Quot.sound |
| C127 | `Danse.C127_ti_beats` | propext, Classical.choice, Quot.sound |
| C128 | `Danse.C128_heard` | propext, Classical.choice, Quot.sound |
| C128 | `Danse.C128_wiener` | propext, Classical.choice, Quot.sound |
| C129 | `Danse.C129_frozen` | propext, Classical.choice, Quot.sound |
| C129 | `Danse.C129_output` | propext, Classical.choice, Quot.sound |
| C130 | `Danse.C130_only_adds` | propext, Classical.choice, Quot.sound |
| C130 | `Danse.C130_instance` | propext, Classical.choice, Quot.sound |
| C130 | `Danse.C130_rows` | propext, Classical.choice, Quot.sound |
| C130 | `Danse.C130_rows_single` | propext, Classical.choice, Quot.sound |
| C130 | `Danse.C130_wiener` | propext, Classical.choice, Quot.sound |
| C130 | `Danse.C130_wiener_single` | propext, Classical.choice, Quot.sound |
| C130 | `Danse.C130_best` | propext, Classical.choice, Quot.sound |
| C130 | `Danse.C130_order` | propext, Classical.choice, Quot.sound |
| C130 | `Danse.C130_heard` | propext, Classical.choice, Quot.sound |
| C130 | `Danse.C130_heard_single` | propext, Classical.choice, Quot.sound |
| C130 | `Danse.C130_same` | propext, Classical.choice, Quot.sound |
| C131 | `Danse.C131_completes` | propext, Classical.choice, Quot.sound |
| C131 | `Danse.C131_danse` | propext, Classical.choice, Quot.sound |
| C131 | `Danse.C131_danse_gevd` | propext, Classical.choice, Quot.sound |
| C131 | `Danse.C131_adds` | propext, Classical.choice, Quot.sound |
| C131 | `Danse.C131_centr` | propext, Classical.choice, Quot.sound |
| C132 | `Danse.C132_completes` | propext, Classical.choice, Quot.sound |
| C132 | `Danse.C132_danse` | propext, Classical.choice, Quot.sound |
| C132 | `Danse.C132_danse_gevd` | propext, Classical.choice, Quot.sound |
| C132 | `Danse.C132_adds` | propext, Classical.choice, Quot.sound |
| C132 | `Danse.C132_centr` | propext, Classical.choice, Quot.sound |
| C133 | `Danse.C133_completes` | propext, Classical.choice, Quot.sound |
| C133 | `Danse.C133_same_schedule` | propext, Classical.choice, Quot.sound |
| C133 | `Danse.C133_driver` | propext, Classical.choice, Quot.sound |
| C133 | `Danse.C133_tidanse` | propext, Classical.choice, Quot.sound |
| C133 | `Danse.C133_driver_completes` | propext, Classical.choice, Quot.sound |
| C134 | `Danse.C134_neighbour_frame` | propext, Classical.choice, Quot.sound |
| C134 | `Danse.C134_heard` | propext, Classical.choice, Quot.sound |
| C134 | `Danse.C134_wiener` | propext, Classical.choice, Quot.sound |
| C135 | `Danse.C135_pauses` | propext, Classical.choice, Quot.sound |
| C135 | `Danse.C135_half_kept` | propext, Classical.choice, Quot.sound |
| C135 | `Danse.C135_short` | propext, Classical.choice, Quot.sound |
| C136 | `Danse.C136_error_curve` | propext, Classical.choice, Quot.sound |
| C136 | `Danse.C136_error_between` | propext, Classical.choice, Quot.sound |
| C136 | `Danse.C136_error_settles` | propext, Classical.choice, Quot.sound |
| C136 | `Danse.C136_settling` | propext, Classical.choice, Quot.sound |
| C136 | `Danse.C136_perfect_not_rated` | propext, Classical.choice, Quot.sound |
| C136 | `Danse.C136_rated` | propext, Classical.choice, Quot.sound |
| C136 | `Danse.C136_residual` | propext, Classical.choice, Quot.sound |
| C136 | `Danse.C136_power_bounds` | propext, Classical.choice, Quot.sound |
| C136 | `Danse.C136_snr_curve` | propext, Classical.choice, Quot.sound |
| C136 | `Danse.C136_smoothed` | propext, Classical.choice, Quot.sound |
| C136 | `Danse.C136_smoothed_edge` | propext, Classical.choice, Quot.sound |
| C137 | `Danse.C137_shift` | propext, Classical.choice, Quot.sound |
| C137 | `Danse.C137_advance` | propext, Classical.choice, Quot.sound |
| C137 | `Danse.C137_delay_truncates` | propext, Classical.choice, Quot.sound |
| C138 | `Danse.C138_files` | propext, Classical.choice, Quot.sound |
| C138 | `Danse.C138_ends_iff` | propext, Classical.choice, Quot.sound |
| C138 | `Danse.C138_stopped` | propext, Classical.choice, Quot.sound |
| C138 | `Danse.C138_refuted_batch_ti` | propext, Classical.choice, Quot.sound |
| C139 | `Danse.C139_frozen` | propext, Classical.choice, Quot.sound |
| C139 | `Danse.C139_frozen_local` | propext, Classical.choice, Quot.sound |
| C139 | `Danse.C139_dead_sensor` | propext, Classical.choice, Quot.sound |
| C139 | `Danse.C139_twin_sensors` | propext, Classical.choice, Quot.sound |
| C139 | `Danse.C139_others_dead` | propext, Classical.choice, Quot.sound |
| C140 | `Danse.C140_remove` | propext, Classical.choice, Quot.sound |
| C141 | `Danse.C141_gain` | propext, Classical.choice, Quot.sound |
| C141 | `Danse.C141_passthrough` | propext, Classical.choice, Quot.sound |
| C141 | `Danse.C141_idle` | propext, Classical.choice, Quot.sound |
| C142 | `Danse.C142_heard` | propext, Classical.choice, Quot.sound |
| C142 | `Danse.C142_few` | propext, Classical.choice, Quot.sound |
| C142 | `Danse.C142_selected` | propext, Classical.choice, Quot.sound |
| C142 | `Danse.C142_ti` | propext, Classical.choice, Quot.sound |
| C142 | `Danse.C142_ti_selected` | propext, Classical.choice, Quot.sound |
| C143 | `Danse.C143_order` | propext, Classical.choice, Quot.sound |
| C143 | `Danse.C143_exception` | propext, Classical.choice, Quot.sound |
| C143 | `Danse.C143_eye` | propext, Quot.sound |
| C143 | `Danse.C143_rank` | propext, Classical.choice, Quot.sound |
| C143 | `Danse.C143_rule` | propext, Classical.choice, Quot.sound |
| C143 | `Danse.C143_rule_gevd` | propext, Classical.choice, Quot.sound |
| C143 | `Danse.C143_refuted_default` | propext, Classical.choice, Quot.sound |
| C144 | `Danse.C144_order` | propext, Classical.choice, Quot.sound |
| C144 | `Danse.C144_exception` | propext, Classical.choice, Quot.sound |
| C144 | `Danse.C144_refuted_default` | propext, Classical.choice, Quot.sound |
| C145 | `Danse.C145_time` | propext, Classical.choice, Quot.sound |
| C145 | `Danse.C145_raises` | propext, Classical.choice, Quot.sound |
| C145 | `Danse.C145_sources` | propext, Classical.choice, Quot.sound |
| C145 | `Danse.C145_window` | propext, Classical.choice, Quot.sound |
| C145 | `Danse.C145_history` | propext, Classical.choice, Quot.sound |
| C145 | `Danse.C145_failure` | propext, Classical.choice, Quot.sound |
| C145 | `Danse.C145_unknown` | propext, Classical.choice, Quot.sound |
| C145 | `Danse.C145_config` | propext, Classical.choice, Quot.sound |
| C145 | `Danse.C145_refuted_nonempty` | propext, Classical.choice, Quot.sound |
| C145 | `Danse.C145_refuted_atomic` | propext, Classical.choice, Quot.sound |
| C146 | `Danse.C146_battery` | propext, Quot.sound |
| C146 | `Danse.C146_refs` | propext, Quot.sound |
| C146 | `Danse.C146_name` | propext, Quot.sound |
| C146 | `Danse.C146_table` | propext, Classical.choice, Quot.sound |
| C146 | `Danse.C146_refuted_ignored` | propext, Quot.sound |
| C146 | `Danse.C146_again` | propext, Quot.sound |
| C146 | `Danse.C146_refuted_collision` | propext, Quot.sound |
| C147 | `Danse.C147_read` | propext, Quot.sound |
| C147 | `Danse.C147_ok` | propext, Quot.sound |
| C147 | `Danse.C147_again` | propext |
| C147 | `Danse.C147_refuted_once` | propext, Quot.sound |
| C148 | `Danse.C148_bands` | propext, Classical.choice, Quot.sound |
| C148 | `Danse.C148_partition` | propext, Classical.choice, Quot.sound |
| C148 | `Danse.C148_energy` | propext, Classical.choice, Quot.sound |
| C148 | `Danse.C148_centres` | propext, Classical.choice, Quot.sound |
| C148 | `Danse.C148_nonempty` | propext, Classical.choice, Quot.sound |
| C148 | `Danse.C148_refuted_empty` | propext, Classical.choice, Quot.sound |
| C148 | `Danse.C148_last` | propext, Classical.choice, Quot.sound |
| C148 | `Danse.C148_stoi` | propext, Classical.choice, Quot.sound |
| C149 | `Danse.C149_blocks` | propext, Classical.choice, Quot.sound |
| C149 | `Danse.C149_zero` | propext, Classical.choice, Quot.sound |
| C149 | `Danse.C149_mean` | propext, Classical.choice, Quot.sound |
| C149 | `Danse.C149_refuted_tail` | propext, Classical.choice, Quot.sound |
| C149 | `Danse.C149_errors` | propext, Classical.choice, Quot.sound |
| C150 | `Danse.C150_delay` | propext, Classical.choice, Quot.sound |
| C150 | `Danse.C150_magnitude` | propext, Classical.choice, Quot.sound |
| C150 | `Danse.C150_refuted_netwide` | propext, Classical.choice, Quot.sound |
| C150 | `Danse.C150_off` | propext, Classical.choice, Quot.sound |
| C150 | `Danse.C150_given` | propext, Classical.choice, Quot.sound |
| C150 | `Danse.C150_oracle` | propext, Classical.choice, Quot.sound |
| C150 | `Danse.C150_relative` | propext, Classical.choice, Quot.sound |
| C150 | `Danse.C150_errors` | propext, Classical.choice, Quot.sound |
| C151 | `Danse.C151_value` | propext, Classical.choice, Quot.sound |
| C151 | `Danse.C151_refuted_db` | propext, Classical.choice, Quot.sound |
| C151 | `Danse.C151_scale` | propext, Classical.choice, Quot.sound |
| C151 | `Danse.C151_flags` | propext, Classical.choice, Quot.sound |
| C151 | `Danse.C151_orientation` | propext, Classical.choice, Quot.sound |
| C151 | `Danse.C151_channels` | propext, Classical.choice, Quot.sound |
| C152 | `Danse.C152_shape` | propext, Classical.choice, Quot.sound |
| C152 | `Danse.C152_values` | propext, Classical.choice, Quot.sound |
| C152 | `Danse.C152_immediate` | propext, Classical.choice, Quot.sound |
| C152 | `Danse.C152_errors` | propext, Classical.choice, Quot.sound |
| C152 | `Danse.C152_refuted_decay` | propext, Classical.choice, Quot.sound |

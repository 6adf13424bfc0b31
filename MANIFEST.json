{
 "claims": [
  {
   "property": "C01",
   "status": "proved",
   "theorems": [
    "Danse.C01_schedule_produced",
    "Danse.C01_exactly_once",
    "Danse.C01_tie_break_independent"
   ],
   "note": "Times are elements of an arbitrary linear order; np.argsort is covered for every tie-breaking."
  },
  {
   "property": "C02",
   "status": "proved",
   "theorems": [
    "Danse.C02_broadcasts_before_updates"
   ],
   "note": ""
  },
  {
   "property": "C03",
   "status": "proved",
   "theorems": [
    "Danse.C03_tree_dependencies"
   ],
   "note": ""
  },
  {
   "property": "C04",
   "status": "proved",
   "theorems": [
    "Danse.C04_turn_taken",
    "Danse.C04_round_robin"
   ],
   "note": ""
  },
  {
   "property": "C05",
   "status": "proved",
   "theorems": [
    "Danse.C05_minimum_spacing"
   ],
   "note": ""
  },
  {
   "property": "C06",
   "status": "proved",
   "theorems": [
    "Danse.C06_no_silent_skip"
   ],
   "note": ""
  },
  {
   "property": "C07",
   "status": "proved",
   "theorems": [
    "Danse.C07_aligned_to_stamp",
    "Danse.C07_generated_instants",
    "Danse.C07_no_stamps"
   ],
   "note": ""
  },
  {
   "property": "C08",
   "status": "proved",
   "theorems": [
    "Danse.C08_efficient_broadcast"
   ],
   "note": ""
  },
  {
   "property": "C09",
   "status": "proved",
   "theorems": [
    "Danse.C09_terminates",
    "Danse.C09_round_robin_instants",
    "Danse.C09_lengths",
    "Danse.C09_tree_construction_can_fail"
   ],
   "note": "C09_tree_construction_can_fail is a defect witness (IndexError)."
  },
  {
   "property": "C10",
   "status": "proved",
   "theorems": [
    "Danse.C10_updater_is_root",
    "Danse.C10_updater_is_root_synchronous",
    "Danse.C10_refuted_for_updateEvery_two"
   ],
   "note": "Proved for updateEvery = 1; refuted with a witness for updateEvery = 2 (C10_refuted_for_updateEvery_two)."
  },
  {
   "property": "C11",
   "status": "proved",
   "theorems": [
    "Danse.C11_whole_chunk",
    "Danse.C11_few_samples"
   ],
   "note": "Hop dividing the frame; the first whole-chunk update is proved to be wrong by Ndft-Ns (disagreement)."
  },
  {
   "property": "C12",
   "status": "proved",
   "theorems": [
    "Danse.C12_whole_chunk",
    "Danse.C12_default_length",
    "Danse.C12_few_samples_iff",
    "Danse.C12_accepted_divides",
    "Danse.C12_zero_length",
    "Danse.C12_refuted_negative_accepted",
    "Danse.C12_refuted_unknown_type"
   ],
   "note": "Positivity and broadcast-type validity are refuted (C12_refuted_*)."
  },
  {
   "property": "C13",
   "status": "proved",
   "theorems": [
    "Danse.C13_divisors",
    "Danse.C13_refuted_sorted"
   ],
   "note": "Sortedness refuted by witness."
  },
  {
   "property": "C14",
   "status": "proved",
   "theorems": [
    "Danse.C14_idempotent",
    "Danse.C14_accepted_consistent",
    "Danse.C14_refusal",
    "Danse.C14_refuted_mode_iff_topology",
    "Danse.C14_refuted_sim_with_sros"
   ],
   "note": "'Exactly when' refuted by witnesses; window samples, testid, random WASN not modelled."
  },
  {
   "property": "C15",
   "status": "proved",
   "theorems": [
    "Danse.C15_fifo",
    "Danse.C15_chunk",
    "Danse.C15_asymmetric_fails"
   ],
   "note": ""
  },
  {
   "property": "C16",
   "status": "proved",
   "theorems": [
    "Danse.C16_frame",
    "Danse.C16_runs_iff"
   ],
   "note": "Includes the failing case (ValueError on stacking) as an iff."
  },
  {
   "property": "C17",
   "status": "proved",
   "theorems": [
    "Danse.C17_flags_account",
    "Danse.C17_each_flag"
   ],
   "note": ""
  },
  {
   "property": "C18",
   "status": "proved",
   "theorems": [
    "Danse.C18_centralised_slots",
    "Danse.C18_centralised_columns"
   ],
   "note": ""
  },
  {
   "property": "C19",
   "status": "proved",
   "theorems": [
    "Danse.C19_broadcast",
    "Danse.C19_update_few_samples",
    "Danse.C19_update_whole_chunk",
    "Danse.C19_causal",
    "Danse.C19_scheduled",
    "Danse.C19_refuted_before_start"
   ],
   "note": "C19_refuted_before_start: an update before N-Ns samples would read future samples (not reachable from the schedule, C19_scheduled)."
  },
  {
   "property": "C20",
   "status": "proved",
   "theorems": [
    "Danse.C20_multiple",
    "Danse.C20_partition"
   ],
   "note": ""
  },
  {
   "property": "C21",
   "status": "proved",
   "theorems": [
    "Danse.C21_orientation",
    "Danse.C21_terminates",
    "Danse.C21_ordering_covers"
   ],
   "note": ""
  },
  {
   "property": "C22",
   "status": "proved",
   "theorems": [
    "Danse.C22_in_network_sum",
    "Danse.C22_scheduled",
    "Danse.C22_refuted_without_overlap"
   ],
   "note": ""
  },
  {
   "property": "C23",
   "status": "proved",
   "theorems": [
    "Danse.C23_counters",
    "Danse.C23_right_away",
    "Danse.C23_first_frame_basis",
    "Danse.C23_node_run",
    "Danse.C23_refuted_centralised"
   ],
   "note": "Exponential-weighting formula proved for every history, both modes of use1stFrameAsBasis, and (without it) for the centralised matrices with their own VAD. Disagreement proved (C23_refuted_centralised): with use1stFrameAsBasis the centralised matrices use the node's counters."
  },
  {
   "property": "C24",
   "status": "proved",
   "theorems": [
    "Danse.C24_psd",
    "Danse.C24_psd_all_kinds",
    "Danse.C24_eye_init",
    "Danse.C24_refuted_random_init"
   ],
   "note": "PSD/Hermitian invariant over complex matrices with real 0<=beta<=1, for all four kinds of matrices; 'eye' initialisation satisfies the hypothesis; random initialisations need not (C24_refuted_random_init)."
  },
  {
   "property": "C25",
   "status": "proved",
   "theorems": [
    "Danse.C25_not_before",
    "Danse.C25_starts",
    "Danse.C25_stays",
    "Danse.C25_batch_init"
   ],
   "note": "Modelled per node; the numerical rank/definiteness test is an arbitrary predicate `valid`."
  },
  {
   "property": "C26",
   "status": "proved",
   "theorems": [
    "Danse.C26_normal_equations",
    "Danse.C26_mmse",
    "Danse.C26_scale",
    "Danse.C26_extremes"
   ],
   "note": "Over ℂ with exact arithmetic (np.linalg.inv fails exactly for determinant 0). MMSE over arbitrary weighted samples of speech+noise."
  },
  {
   "property": "C27",
   "status": "proved",
   "theorems": [
    "Danse.C27_full_rank",
    "Danse.C27_matching_rank",
    "Danse.C27_low_rank",
    "Danse.C27_rank_too_large",
    "Danse.C27_contract_satisfiable"
   ],
   "note": "scipy.linalg.eigh and np.argsort enter through their contract LinAlg.Ok, shown satisfiable for every Hermitian Ryy and positive definite Rnn (C27_contract_satisfiable)."
  },
  {
   "property": "C28",
   "status": "proved",
   "theorems": [
    "Danse.C28_tied",
    "Danse.C28_only_reference",
    "Danse.C28_single_sensor",
    "Danse.C28_target_schedule",
    "Danse.C28_spacing",
    "Danse.C28_hull",
    "Danse.C28_converges"
   ],
   "note": "One node, all histories of update events; relaxation as configured."
  },
  {
   "property": "C29",
   "status": "proved",
   "theorems": [
    "Danse.C29_normalised",
    "Danse.C29_idempotent",
    "Danse.C29_refuted_direction"
   ],
   "note": "What the code does is proved; the natural reading (direction kept) is refuted by C29_refuted_direction."
  },
  {
   "property": "C30",
   "status": "proved",
   "theorems": [
    "Danse.C30_additive",
    "Danse.C30_additive_whole",
    "Danse.C30_reproduces",
    "Danse.C30_mixture",
    "Danse.C30_refuted_speech_onset",
    "Danse.C30_adaptive"
   ],
   "note": "Given-filter re-runs are additive for few-samples broadcasting (any schedule, filters, both output modes, oracle SRO compensation) and reproduce the original run; with whole-chunk broadcasting additivity holds unless a chunk is silent in one run only, and is refuted at a speech onset. Centralised and single-sensor estimates not modelled here."
  },
  {
   "property": "C31",
   "status": "proved",
   "theorems": [
    "Danse.C31_round_robin",
    "Danse.C31_simultaneous",
    "Danse.C31_counters",
    "Danse.C31_turns",
    "Danse.C31_broadcast",
    "Danse.C31_unknown_type"
   ],
   "note": "Fully connected danse_batch. The tree re-rooting of tidanse_batch has no effect on the batch statistics."
  },
  {
   "property": "C32",
   "status": "proved",
   "theorems": [
    "Danse.C32_centralised_vad",
    "Danse.C32_average"
   ],
   "note": "Batch covariance: average over frames of each class; NaN for an empty class is excluded by hypothesis."
  },
  {
   "property": "C33",
   "status": "proved",
   "theorems": [
    "Danse.C33_filtering",
    "Danse.C33_whole_chunk_identity",
    "Danse.C33_high_overlap_fails",
    "Danse.C33_output_gain"
   ],
   "note": "Exact arithmetic; C33_high_overlap_fails is a defect."
  },
  {
   "property": "C34",
   "status": "proved",
   "theorems": [
    "Danse.C34_convolution",
    "Danse.C34_few_samples",
    "Danse.C34_conv_output",
    "Danse.C34_broadcast_newest",
    "Danse.C34_conv_output_late"
   ],
   "note": "C34_conv_output_late is a defect (conv output one sample late)."
  },
  {
   "property": "C35",
   "status": "proved",
   "theorems": [
    "Danse.C35_accepts_iff",
    "Danse.C35_real",
    "Danse.C35_round_trip"
   ],
   "note": "Over any field with conjugation and a primitive root; dftRoot_complex instantiates it with the complex exponential."
  },
  {
   "property": "C36",
   "status": "proved",
   "theorems": [
    "Danse.C36_neighbours",
    "Danse.C36_one_list_per_node",
    "Danse.C36_refuted_empty_last_node",
    "Danse.C36_fully_connected",
    "Danse.C36_ad_hoc",
    "Danse.C36_user_defined",
    "Danse.C36_unknown_rejected",
    "Danse.C36_refuted_connected"
   ],
   "note": "Exact reals for coordinates; random ad-hoc draws are an arbitrary 0/1 array."
  },
  {
   "property": "C37",
   "status": "proved",
   "theorems": [
    "Danse.C37_decisions",
    "Danse.C37_incomplete_inactive",
    "Danse.C37_length",
    "Danse.C37_refuted_one_per_complete_frame",
    "Danse.C37_no_vad"
   ],
   "note": "Single-source VAD, exact rationals."
  },
  {
   "property": "C38",
   "status": "proved",
   "theorems": [
    "Danse.C38_window_energy",
    "Danse.C38_threshold_monotone",
    "Danse.C38_refuted_short_window"
   ],
   "note": "1-D signal, exact rationals."
  },
  {
   "property": "C39",
   "status": "proved",
   "theorems": [
    "Danse.C39_length_and_clock",
    "Danse.C39_no_sro",
    "Danse.C39_refuted_one_sample"
   ],
   "note": "The resampler is an arbitrary function."
  },
  {
   "property": "C40",
   "status": "proved",
   "theorems": [
    "Danse.C40_partition",
    "Danse.C40_block",
    "Danse.C40_sensor_owner",
    "Danse.C40_ref_mic",
    "Danse.C40_ref_mic_single_sensors",
    "Danse.C40_refuted_ref_mic"
   ],
   "note": "C40_refuted_ref_mic: the snrBasis mic option confuses sensor and node indices."
  },
  {
   "property": "C41",
   "status": "proved",
   "theorems": [
    "Danse.C41_self_noise_snr",
    "Danse.C41_degenerate",
    "Danse.C41_mic_snr",
    "Danse.C41_dry_snr"
   ],
   "note": "Exact reals (log10, powers)."
  },
  {
   "property": "C42",
   "status": "proved",
   "theorems": [
    "Danse.C42_exact_length",
    "Danse.C42_refuted_empty_source"
   ],
   "note": "C42_refuted_empty_source: an empty source never terminates."
  },
  {
   "property": "C43",
   "status": "proved",
   "theorems": [
    "Danse.C43_no_silent_loss",
    "Danse.C43_refusal",
    "Danse.C43_folder_after",
    "Danse.C43_failures",
    "Danse.C43_refuted_overwrite_wipes"
   ],
   "note": "Folder contents as a list of named entries; entries whose deletion fails are kept (swallowed exception). One refuted part: writeOverPrevious keeps old files."
  },
  {
   "property": "C44",
   "status": "proved",
   "theorems": [
    "Danse.C44_given",
    "Danse.C44_untouched",
    "Danse.C44_sections_known",
    "Danse.C44_unknown_list_rejected",
    "Danse.C44_refuted_unknown_name"
   ],
   "note": "Up to re-initialisation (C14 covers __post_init__). Unknown plain-valued names accepted: refuted part."
  },
  {
   "property": "C45",
   "status": "proved",
   "theorems": [
    "Danse.C45_equal_iff",
    "Danse.C45_refl",
    "Danse.C45_refuted_symmetric",
    "Danse.C45_refuted_symmetric_close"
   ],
   "note": "Symmetry refuted by two theorems; NumPy's comparison of an array with a non-array is a parameter."
  },
  {
   "property": "C46",
   "status": "proved",
   "theorems": [
    "Danse.C46_load_last_saved",
    "Danse.C46_roundtrip",
    "Danse.C46_save_frame",
    "Danse.C46_refuted_json_save",
    "Danse.C46_refuted_json_load",
    "Danse.C46_refuted_unknown_type"
   ],
   "note": "Pickle is assumed to restore the object; JSON path refuted."
  },
  {
   "property": "C47",
   "status": "proved",
   "theorems": [
    "Danse.C47_no_clipping",
    "Danse.C47_monotone",
    "Danse.C47_exact_iff",
    "Danse.C47_refuted_wraps",
    "Danse.C47_refuted_negative_signal",
    "Danse.C47_refuted_silence"
   ],
   "note": "Exact characterisation of the signals exported without wrap-around, plus refutations (wrap, sign inversion, silence)."
  },
  {
   "property": "C48",
   "status": "proved",
   "theorems": [
    "Danse.C48_refuted_gamma",
    "Danse.C48_refuted_hop",
    "Danse.C48_refuted_large_gamma",
    "Danse.C48_bounded"
   ],
   "note": "Refuted for the exponent and overlap by argument binding of the positional call; clamp bound proved. The spectral computation itself is not modelled."
  },
  {
   "property": "C49",
   "status": "proved",
   "theorems": [
    "Danse.C49_visits",
    "Danse.C49_starts",
    "Danse.C49_no_overlap_count",
    "Danse.C49_refuted_trailing_zero",
    "Danse.C49_refuted_index_error",
    "Danse.C49_refuted_time_stamps",
    "Danse.C49_refuted_snr"
   ],
   "note": "Termination and visited chunks proved for overlap 0 or >= 1 sample; IndexError, trailing zero, stamp count and dynamic SNR refutations."
  },
  {
   "property": "C50",
   "status": "proved",
   "theorems": [
    "Danse.C50_delay",
    "Danse.C50_refuted_read_is_stable"
   ],
   "note": "Ring buffer over arbitrary write/clear histories; views modelled as references."
  },
  {
   "property": "C51",
   "status": "proved",
   "theorems": [
    "Danse.C51_window",
    "Danse.C51_exact_shift",
    "Danse.C51_saturated",
    "Danse.C51_warns_once",
    "Danse.C51_shift_bounded",
    "Danse.C51_integer_offset",
    "Danse.C51_linear",
    "Danse.C51_refuted_full_block",
    "Danse.C51_fractional",
    "Danse.C51_round"
   ],
   "note": "Index logic exact over rationals; signal path over reals with the DFT-based fractional delay; the quality of genuinely fractional delays is not claimed."
  },
  {
   "property": "C52",
   "status": "proved",
   "theorems": [
    "Danse.C52_simple_clamped",
    "Danse.C52_simple_integrates",
    "Danse.C52_imc_frozen",
    "Danse.C52_imc_reacts",
    "Danse.C52_imc_stable",
    "Danse.C52_refuted_imc_clamped",
    "Danse.C52_refuted_simple_hold"
   ],
   "note": "Both controllers with exact rational coefficients of the source; BIBO bound via real poles."
  },
  {
   "property": "C53",
   "status": "proved",
   "theorems": [
    "Danse.C53_refines",
    "Danse.C53_initial_zero",
    "Danse.C53_refuted_long_frames",
    "Danse.C53_refuted_second_average_start",
    "Danse.C53_derived"
   ],
   "note": "Refinement of the state machine to a history specification, for arbitrary spectrum/averaging functions."
  },
  {
   "property": "C54",
   "status": "proved",
   "theorems": [
    "Danse.C54_oracle",
    "Danse.C54_off",
    "Danse.C54_phase_only",
    "Danse.C54_is_delay",
    "Danse.C54_alignment"
   ],
   "note": "Exact shifts over Q; phase factors over C. Signals enter only through the buffer flags."
  },
  {
   "property": "C55",
   "status": "proved",
   "theorems": [
    "Danse.C55_skip",
    "Danse.C55_channels_iff",
    "Danse.C55_centralised",
    "Danse.C55_centralised_no_flags",
    "Danse.C55_refuted_wrong_channels"
   ],
   "note": "Exact characterisation of the configurations in which the centralised flags reach the right channels; negation with witnesses otherwise."
  },
  {
   "property": "C56",
   "status": "proved",
   "theorems": [
    "Danse.C56_filter_held",
    "Danse.C56_initial_filter",
    "Danse.C56_constant_inits",
    "Danse.C56_types",
    "Danse.C56_refuted_random_init"
   ],
   "note": "Holds for filter initialisations that are constant over iterations; refuted for 'random' (C56_refuted_random_init)."
  },
  {
   "property": "C57",
   "status": "proved",
   "theorems": [
    "Danse.C57_half_life"
   ],
   "note": "Over the reals."
  },
  {
   "property": "C58",
   "status": "proved",
   "theorems": [
    "Danse.C58_centralised",
    "Danse.C58_update",
    "Danse.C58_stays",
    "Danse.C58_never_fails"
   ],
   "note": "Exact arithmetic, one frequency bin (bins are independent), filters by update_w. Identical statistics at all nodes (common VAD)."
  },
  {
   "property": "C59",
   "status": "proved",
   "theorems": [
    "Danse.C59_converges",
    "Danse.C59_outputs",
    "Danse.C59_error_decreases",
    "Danse.C59_single_sensor"
   ],
   "note": "Hypotheses: rank-one speech covariance, invertible noisy covariance, speech heard at every reference sensor, no update fails; a concrete two-node run not starting at the optimum is shown to meet them."
  },
  {
   "property": "C60",
   "status": "proved",
   "theorems": [
    "Danse.C60_output",
    "Danse.C60_round_robin",
    "Danse.C60_converges",
    "Danse.C60_error_decreases",
    "Danse.C60_refuted_default_init"
   ],
   "note": "Single-frequency exact model of the batch TI loop over C. C60_refuted_default_init: the default filterInitType selectFirstSensor has zero last coefficient, so the run is NaN from the first batch update."
  },
  {
   "property": "C61",
   "status": "proved",
   "theorems": [
    "Danse.C61_end_first_utterance",
    "Danse.C61_beginning_second_utterance",
    "Danse.C61_beginning_first_utterance",
    "Danse.C61_refuted_single_utterance"
   ],
   "note": "Single source VAD; reference strings parsed into an inductive type."
  },
  {
   "property": "C62",
   "status": "proved",
   "theorems": [
    "Danse.C62_loaded_is_computed",
    "Danse.C62_refuted_stale_file"
   ],
   "note": "Folder is a partial map; the hash is an arbitrary function assumed collision-free on the requests."
  },
  {
   "property": "C63",
   "status": "proved",
   "theorems": [
    "Danse.C63_signals",
    "Danse.C63_first_sensor",
    "Danse.C63_other_sensors",
    "Danse.C63_refuted_second_sensor",
    "Danse.C63_refuted_diffuse_with_sro",
    "Danse.C63_total"
   ],
   "note": "Resampling of one signal is an arbitrary additive map."
  },
  {
   "property": "C64",
   "status": "proved",
   "theorems": [
    "Danse.C64_regular_pauses"
   ],
   "note": "Positive durations; random pauses not modelled."
  },
  {
   "property": "C65",
   "status": "proved",
   "theorems": [
    "Danse.C65_refuted_isolation_all_agree",
    "Danse.C65_refuted_isolation",
    "Danse.C65_load_effect"
   ],
   "note": "Isolation refuted in general (all objects agree on nested parameters) and by a concrete history; the effect of a load is characterised. Python 3.9 dataclass default instances."
  },
  {
   "property": "C66",
   "status": "proved",
   "theorems": [
    "Danse.C66_snr_value",
    "Danse.C66_local_centralised_value",
    "Danse.C66_default_end",
    "Danse.C66_diff",
    "Danse.C66_common_gain",
    "Danse.C66_monotone",
    "Danse.C66_refuted_local_centralised_diff"
   ],
   "note": "SNR part of get_metrics over real signals; STOI/PESQ not modelled."
  },
  {
   "property": "C67",
   "status": "proved",
   "theorems": [
    "Danse.C67_defined",
    "Danse.C67_exact_on_parabola",
    "Danse.C67_sro_range",
    "Danse.C67_refuted_max_sro",
    "Danse.C67_sto_range",
    "Danse.C67_refuted_tdoa"
   ],
   "note": "Peak search over rationals; upsampling (scipy.signal.resample) is not modelled."
  },
  {
   "property": "C68",
   "status": "proved",
   "theorems": [
    "Danse.C68_unit",
    "Danse.C68_level_invariant",
    "Danse.C68_swap",
    "Danse.C68_refuted_quiet",
    "Danse.C68_average"
   ],
   "note": "Per-bin complex arithmetic."
  },
  {
   "property": "C69",
   "status": "proved",
   "theorems": [
    "Danse.C69_reference_delayed",
    "Danse.C69_aligned",
    "Danse.C69_refuted_input_unchanged",
    "Danse.C69_refuted_returned_frame_stable",
    "Danse.C69_feedback"
   ],
   "note": "Arbitrary estimator; alignment proved for the frames during which the IMC estimate is zero."
  },
  {
   "property": "C70",
   "status": "proved",
   "theorems": [
    "Danse.C70_coherence",
    "Danse.C70_coherence_centralised",
    "Danse.C70_schedule",
    "Danse.C70_runs",
    "Danse.C70_refuted_accepted_options",
    "Danse.C70_refuted_closed_loop",
    "Danse.C70_refuted_between_estimates"
   ],
   "note": "Estimator outputs are inputs; the recursion of the documentation is refuted."
  },
  {
   "property": "C71",
   "status": "proved",
   "theorems": [
    "Danse.C71_unit",
    "Danse.C71_impulse",
    "Danse.C71_gs",
    "Danse.C71_gs_search_exists",
    "Danse.C71_real",
    "Danse.C71_steady",
    "Danse.C71_average",
    "Danse.C71_ls",
    "Danse.C71_refuted_ls_exact"
   ],
   "note": "Golden-section search (third party) enters through its contract (returns the lag of a single impulse), which is shown to be satisfiable; the estimate then has the right value and sign. Least-squares variant modelled and its bias computed."
  },
  {
   "property": "C72",
   "status": "proved",
   "theorems": [
    "Danse.C72_causal",
    "Danse.C72_output"
   ],
   "note": "Filter and SRO computations are an arbitrary function of the node's observations."
  },
  {
   "property": "C73",
   "status": "proved",
   "theorems": [
    "Danse.C73_component",
    "Danse.C73_neighbours"
   ],
   "note": "Both runs are assumed to end normally."
  },
  {
   "property": "C74",
   "status": "proved",
   "theorems": [
    "Danse.C74_refuted_conv_uses_neighbours"
   ],
   "note": "Refutes the expected property for 'conv' synthesis; the example beside it shows that WOLA output does depend on neighbours."
  },
  {
   "property": "C75",
   "status": "proved",
   "theorems": [
    "Danse.C75_gain",
    "Danse.C75_passthrough"
   ],
   "note": "WOLA synthesis; exact arithmetic."
  },
  {
   "property": "C76",
   "status": "proved",
   "theorems": [
    "Danse.C76_delivery",
    "Danse.C76_frame"
   ],
   "note": "Few-samples broadcasting without the efficient variant; composed with C15/C16."
  },
  {
   "property": "C77",
   "status": "proved",
   "theorems": [
    "Danse.C77_rows",
    "Danse.C77_written",
    "Danse.C77_observed"
   ],
   "note": "Composed with C30 as C30_adaptive."
  },
  {
   "property": "C78",
   "status": "proved",
   "theorems": [
    "Danse.C78_schedule",
    "Danse.C78_passthrough",
    "Danse.C78_neighbour_frame"
   ],
   "note": "Fully connected networks without efficientSpSBC; nodes with the same clock whose frequency is inferred exactly (C79_exact)."
  },
  {
   "property": "C79",
   "status": "proved",
   "theorems": [
    "Danse.C79_accuracy",
    "Danse.C79_exact",
    "Danse.C79_jitter",
    "Danse.C79_simultaneous",
    "Danse.C79_refuted_48kHz",
    "Danse.C79_refuted_frames_in_step",
    "Danse.C79_refuted_small_sro",
    "Danse.C79_refuted_reference_index"
   ],
   "note": "Exact rational arithmetic. Accuracy, exactness, jitter detection and the simultaneous-updating check proved; refuted for 48 kHz, small offsets and the reference index."
  },
  {
   "property": "C80",
   "status": "proved",
   "theorems": [
    "Danse.C80_completes",
    "Danse.C80_given",
    "Danse.C80_flags"
   ],
   "note": "Few-sample broadcasts without efficientSpSBC; the filter rows have one value per bin (which perform_update guarantees)."
  },
  {
   "property": "C81",
   "status": "proved",
   "theorems": [
    "Danse.C81_run",
    "Danse.C81_topology",
    "Danse.C81_unique"
   ],
   "note": "Synchronous exchanges (all nodes at the same times); few-sample broadcasts with at least Ns samples, not the efficient mode. How filters are computed from the observations is a parameter."
  },
  {
   "property": "C82",
   "status": "proved",
   "theorems": [
    "Danse.C82_schedule",
    "Danse.C82_run",
    "Danse.C82_topology"
   ],
   "note": "Synchronous clocks; pruning to a tree is a parameter (any tree per root)."
  },
  {
   "property": "C83",
   "status": "proved",
   "theorems": [
    "Danse.C83_few",
    "Danse.C83_whole"
   ],
   "note": "Whole histories of runs over the schedules of initialize_events (SyncTI). Few-sample case requires L = Ns, non-efficient; whole-chunk case N = 2 Ns and selector fusion vectors."
  },
  {
   "property": "C84",
   "status": "proved",
   "theorems": [
    "Danse.C84_completes",
    "Danse.C84_default_filters_refuted",
    "Danse.C84_short_chunks_refuted",
    "Danse.C84_long_chunks_refuted"
   ],
   "note": "C84_completes is the positive statement; the three _refuted theorems show that its conditions fail with default or accepted settings (Disagreements 44-46)."
  },
  {
   "property": "C85",
   "status": "proved",
   "theorems": [
    "Danse.C85_additive",
    "Danse.C85_additive_whole",
    "Danse.C85_reproduces",
    "Danse.C85_mixture",
    "Danse.C85_few_ignores_weight",
    "Danse.C85_whole_chunk_refuted",
    "Danse.C85_whole_uses_weight"
   ],
   "note": "Few-sample mode: full statement (C85_additive, C85_reproduces, C85_mixture). Whole-chunk mode: linear re-runs (C85_additive_whole) that are not components of the output (C85_whole_chunk_refuted). Centralised and single-sensor estimates are not modelled."
  },
  {
   "property": "C86",
   "status": "proved",
   "theorems": [
    "Danse.C86_observation",
    "Danse.C86_single_sensor",
    "Danse.C86_flags",
    "Danse.C86_one_sensor"
   ],
   "note": "For every schedule. The filters are given; phase factors do not enter the time-domain observation."
  },
  {
   "property": "C87",
   "status": "proved",
   "theorems": [
    "Danse.C87_whole_chunk",
    "Danse.C87_schedule_efficient",
    "Danse.C87_efficient"
   ],
   "note": "Whole-chunk mode needs Ns | N (else the schedule itself differs); synchronous nodes."
  },
  {
   "property": "C88",
   "status": "proved",
   "theorems": [
    "Danse.C88_additive"
   ],
   "note": "Full statement."
  },
  {
   "property": "C89",
   "status": "proved",
   "theorems": [
    "Danse.C89_options_only_add",
    "Danse.C89_independent"
   ],
   "note": "Full statement."
  },
  {
   "property": "C90",
   "status": "proved",
   "theorems": [
    "Danse.C90_refuted_few_samples",
    "Danse.C90_refuted_sro_compensation",
    "Danse.C90_refuted_without_centralised",
    "Danse.C90_refuted_conv_own_sensors",
    "Danse.C90_refuted_nothing_to_send"
   ],
   "note": "The options are refuted: no run with them completes; the convolution mode ignores the own sensors."
  },
  {
   "property": "C91",
   "status": "proved",
   "theorems": [
    "Danse.C91_select"
   ],
   "note": "WOLA synthesis; the efficient mode for L dividing Ns (else other sensors lag, C87_efficient)."
  },
  {
   "property": "C92",
   "status": "proved",
   "theorems": [
    "Danse.C92_schedule",
    "Danse.C92_run",
    "Danse.C92_heard",
    "Danse.C92_aligned",
    "Danse.C92_misaligned_refuted",
    "Danse.C92_undivided_refuted"
   ],
   "note": "The schedule for every L <= Ns, the run for L dividing Ns; the history for nodes that send their reference sensor and DFTsize a multiple of Ns. The two refuted sub-claims are shown by concrete runs."
  },
  {
   "property": "C93",
   "status": "proved",
   "theorems": [
    "Danse.C93_tree",
    "Danse.C93_total",
    "Danse.C93_colocated_refuted",
    "Danse.C93_colocated_silent",
    "Danse.C93_disconnected",
    "Danse.C93_topology",
    "Danse.C93_user_root",
    "Danse.C93_snr_root",
    "Danse.C93_snr_root_refuted"
   ],
   "note": "nx.minimum_spanning_tree is a parameter assumed to return a spanning forest of the least total weight (existence of such an algorithm is proved). Positions and distances are exact reals. The four refuted sub-claims are proved for all networks of the kind described, with concrete instances."
  },
  {
   "property": "C94",
   "status": "proved",
   "theorems": [
    "Danse.C94_bounded",
    "Danse.C94_too_short",
    "Danse.C94_min_duration",
    "Danse.C94_short_refuted",
    "Danse.C94_shape",
    "Danse.C94_mask",
    "Danse.C94_identical",
    "Danse.C94_identical_reached",
    "Danse.C94_gain",
    "Danse.C94_plain",
    "Danse.C94_extended"
   ],
   "note": "Exact reals; resampy.resample, the bins of the bands and the dither are parameters. Division by zero is the value NaN, an error of the model."
  },
  {
   "property": "C95",
   "status": "proved",
   "theorems": [
    "Danse.C95_schedule",
    "Danse.C95_completes",
    "Danse.C95_flags",
    "Danse.C95_drift",
    "Danse.C95_frame",
    "Danse.C95_completes_iff",
    "Danse.C95_no_overlap"
   ],
   "note": "Exact rational time stamps; the inferred frequencies may differ from the true ones within ClockClose (C95_frame: inferred exactly). Few-sample broadcasts, not efficient."
  },
  {
   "property": "C96",
   "status": "proved",
   "theorems": [
    "Danse.C96_linear",
    "Danse.C96_linear_spacing_refuted",
    "Danse.C96_radius",
    "Danse.C96_grid",
    "Danse.C96_errors",
    "Danse.C96_random_rotation",
    "Danse.C96_turn",
    "Danse.C96_turn_nan"
   ],
   "note": "Exact reals; random draws and rotation matrices are parameters (rotations: orthogonal). The geometry 'radius' is partial correctness: a loop that never draws a point in the radius is outside the claim."
  },
  {
   "property": "C97",
   "status": "proved",
   "theorems": [
    "Danse.C97_line",
    "Danse.C97_line_refuted",
    "Danse.C97_line_default_refuted",
    "Danse.C97_spinning_top",
    "Danse.C97_spinning_top_sensors",
    "Danse.C97_spinning_top_sources_refuted",
    "Danse.C97_three_sources_refuted",
    "Danse.C97_vertical_refuted",
    "Danse.C97_vertical_never_refuted",
    "Danse.C97_circle",
    "Danse.C97_inter_node_refuted",
    "Danse.C97_random",
    "Danse.C97_random_sensors",
    "Danse.C97_random_sensors_refuted",
    "Danse.C97_rirs",
    "Danse.C97_no_noise_refuted"
   ],
   "note": "Exact reals; draws are parameters. Room simulation (pyroomacoustics) is a parameter of C97_rirs."
  },
  {
   "property": "C98",
   "status": "proved",
   "theorems": [
    "Danse.C98_frames",
    "Danse.C98_too_short",
    "Danse.C98_output",
    "Danse.C98_output_ti",
    "Danse.C98_centralised",
    "Danse.C98_pass_through",
    "Danse.C98_rectangular",
    "Danse.C98_lost",
    "Danse.C98_additive",
    "Danse.C98_total",
    "Danse.C98_total_ti",
    "Danse.C98_refuted_exact_fit",
    "Danse.C98_refuted_exact_fit_ti",
    "Danse.C98_refuted_two_frames",
    "Danse.C98_vad_frames",
    "Danse.C98_refuted_no_overlap",
    "Danse.C98_converges"
   ],
   "note": "Exact numbers; scipy.signal.stft/istft modelled from their definitions. C98_converges carries the one-source assumptions of C33/C60."
  },
  {
   "property": "C99",
   "status": "proved",
   "theorems": [
    "Danse.C99_output",
    "Danse.C99_total",
    "Danse.C99_is_centralised",
    "Danse.C99_adds_up",
    "Danse.C99_cost",
    "Danse.C99_cost_whole",
    "Danse.C99_refuted_comparison"
   ],
   "note": "Exact numbers; NaN of an empty mean is modelled as none."
  },
  {
   "property": "C100",
   "status": "proved",
   "theorems": [
    "Danse.C100_snr",
    "Danse.C100_sisnr",
    "Danse.C100_fwsnrseg",
    "Danse.C100_stoi",
    "Danse.C100_pesq",
    "Danse.C100_pesq_other_rates",
    "Danse.C100_refuted_short_window",
    "Danse.C100_independent",
    "Danse.C100_refuted_no_vad",
    "Danse.C100_total",
    "Danse.C100_refuted_dynamic",
    "Danse.C100_window",
    "Danse.C100_nodes",
    "Danse.C100_refuted_no_best",
    "Danse.C100_refuted_batch",
    "Danse.C100_batch_window",
    "Danse.C100_refuted_pesq_best",
    "Danse.C100_refuted_pesq_ssbc"
   ],
   "note": "The score functions are parameters; the theorems hold for all of them (SNR, segmental SNR and STOI are modelled for C55-C57 and C94)."
  },
  {
   "property": "C101",
   "status": "proved",
   "theorems": [
    "Danse.C101_value",
    "Danse.C101_low_rate",
    "Danse.C101_weights",
    "Danse.C101_mean",
    "Danse.C101_gain",
    "Danse.C101_refuted_bands",
    "Danse.C101_section"
   ],
   "note": "Real numbers; the Butterworth design is a parameter, sosfilt and the check of the edges are modelled; a band without power (NaN or infinity in the code) is excluded by hypothesis."
  },
  {
   "property": "C102",
   "status": "proved",
   "theorems": [
    "Danse.C102_value",
    "Danse.C102_refuted_one_frame",
    "Danse.C102_range",
    "Danse.C102_local",
    "Danse.C102_gain",
    "Danse.C102_identical",
    "Danse.C102_refuted_low_rate"
   ],
   "note": "Real numbers; scipy.signal.stft from its definition (window, zero padding, no boundary, no padding); gamma > 0; one-dimensional signals. The float rounding of num_frames is not modelled."
  },
  {
   "property": "C103",
   "status": "proved",
   "theorems": [
    "Danse.C103_verify",
    "Danse.C103_nodes",
    "Danse.C103_one_reference",
    "Danse.C103_delays",
    "Danse.C103_reachable",
    "Danse.C103_refuted_root_again"
   ],
   "note": "The type checks of verify_topology are not modelled (descriptions are lists of lists of lists)."
  },
  {
   "property": "C104",
   "status": "proved",
   "theorems": [
    "Danse.C104_exists",
    "Danse.C104_online",
    "Danse.C104_parallel",
    "Danse.C104_agree",
    "Danse.C104_refuted_root_again",
    "Danse.C104_refuted_alignment"
   ],
   "note": "The estimator is an arbitrary state machine that does not raise; processes of a level deliver one result each, in any order; np.stack copies, so that the estimator cannot change the signals."
  },
  {
   "property": "C105",
   "status": "proved",
   "theorems": [
    "Danse.C105_value",
    "Danse.C105_refuted_delay"
   ],
   "note": "Exact times; the time axis is np.linspace(0, sig_len, n)."
  },
  {
   "property": "C106",
   "status": "proved",
   "theorems": [
    "Danse.C106_columns",
    "Danse.C106_values",
    "Danse.C106_fc",
    "Danse.C106_ti",
    "Danse.C106_converged",
    "Danse.C106_refuted_timing",
    "Danse.C106_refuted_parts"
   ],
   "note": "Real and complex arithmetic is exact; a division by a zero coefficient of the in-network sum is not modelled (C106_ti is then about the quotient 0)."
  },
  {
   "property": "C107",
   "status": "proved",
   "theorems": [
    "Danse.C107_argument",
    "Danse.C107_refuted_type_error",
    "Danse.C107_refuted_type_error_ti",
    "Danse.C107_refuted_never"
   ],
   "note": "The claim is a refutation: the option always fails. One bin; the update of filters is a parameter."
  },
  {
   "property": "C108",
   "status": "proved",
   "theorems": [
    "Danse.C108_recorded",
    "Danse.C108_off",
    "Danse.C108_setting"
   ],
   "note": "np.linalg.cond is a parameter."
  },
  {
   "property": "C109",
   "status": "proved",
   "theorems": [
    "Danse.C109_first_mic",
    "Danse.C109_one_source",
    "Danse.C109_several",
    "Danse.C109_refuted_other_mics",
    "Danse.C109_dry",
    "Danse.C109_refuted_dry",
    "Danse.C109_decay",
    "Danse.C109_dirac",
    "Danse.C109_total"
   ],
   "note": "Exact real arithmetic; a constant source read from a file is an error value (division by zero gives NaN in the code). The disagreements are proved as C109_refuted_*."
  },
  {
   "property": "C110",
   "status": "proved",
   "theorems": [
    "Danse.C110_replaced",
    "Danse.C110_refuted_sensor_zero",
    "Danse.C110_refuted_components",
    "Danse.C110_added"
   ],
   "note": "Drawn signals are parameters. The disagreements are proved as C110_refuted_*."
  },
  {
   "property": "C111",
   "status": "proved",
   "theorems": [
    "Danse.C111_selected",
    "Danse.C111_candidates",
    "Danse.C111_kept",
    "Danse.C111_right_rate",
    "Danse.C111_refuted_rate"
   ],
   "note": "Counterparts are assumed to have no counterparts of their own; np.random.choice is a parameter with its documented guarantee."
  },
  {
   "property": "C112",
   "status": "proved",
   "theorems": [
    "Danse.C112_aligned",
    "Danse.C112_iff",
    "Danse.C112_refuted_random_signals",
    "Danse.C112_offsets"
   ],
   "note": "The random WASN is not modelled. The disagreement is proved as C112_refuted_random_signals."
  },
  {
   "property": "C113",
   "status": "proved",
   "theorems": [
    "Danse.C113_rows",
    "Danse.C113_left_over",
    "Danse.C113_refuted_last_row",
    "Danse.C113_rows_ti",
    "Danse.C113_too_short",
    "Danse.C113_batch"
   ],
   "note": "Row values are arbitrary; TI-DANSE for nodes with one clock. The disagreement is proved as C113_refuted_last_row."
  },
  {
   "property": "C114",
   "status": "proved",
   "theorems": [
    "Danse.C114_few_samples",
    "Danse.C114_whole_chunk",
    "Danse.C114_refuted_whole_chunk",
    "Danse.C114_few_samples_ti",
    "Danse.C114_whole_chunk_ti",
    "Danse.C114_refuted_whole_chunk_ti"
   ],
   "note": "Clocks that are inferred exactly. The disagreements are proved as C114_refuted_whole_chunk and C114_refuted_whole_chunk_ti."
  },
  {
   "property": "C115",
   "status": "proved",
   "theorems": [
    "Danse.C115_oracle",
    "Danse.C115_refuted_closed_loop",
    "Danse.C115_open_loop"
   ],
   "note": "Exact rational arithmetic, constant offset. The disagreement is proved as C115_refuted_closed_loop."
  },
  {
   "property": "C116",
   "status": "proved",
   "theorems": [
    "Danse.C116_estimates",
    "Danse.C116_drift",
    "Danse.C116_refuted_flags",
    "Danse.C116_refuted_refilter",
    "Danse.C116_refuted_early",
    "Danse.C116_total",
    "Danse.C116_silence"
   ],
   "note": "One neighbour, even DFT size; the third-party golden-section search is an argument, assumed to find the peak of a single impulse where stated. The disagreements are proved as C116_refuted_flags, C116_refuted_refilter and C116_refuted_early; C116_silence is the effect of silent bins on all later estimates."
  },
  {
   "property": "C117",
   "status": "proved",
   "theorems": [
    "Danse.C117_instance",
    "Danse.C117_rows",
    "Danse.C117_wiener",
    "Danse.C117_broadcast",
    "Danse.C117_relaxed",
    "Danse.C117_posdef",
    "Danse.C117_completes",
    "Danse.C117_completes_gevd",
    "Danse.C117_starts"
   ],
   "note": "Exact arithmetic; the numerical rank test is an argument (assumed to pass invertible matrices only where stated), SRO estimation is not part of the run (phase factors are a function of times and flags, as without compensation or with oracle offsets), batch-initialised matrices are excluded (C107)."
  },
  {
   "property": "C118",
   "status": "proved",
   "theorems": [
    "Danse.C118_roundtrip",
    "Danse.C118_unset",
    "Danse.C118_refuted_array",
    "Danse.C118_refuted_string"
   ],
   "note": "yaml.dump followed by yaml.load is taken to give back the same mapping; __post_init__ is not run."
  },
  {
   "property": "C119",
   "status": "proved",
   "theorems": [
    "Danse.C119_instance",
    "Danse.C119_rows",
    "Danse.C119_started",
    "Danse.C119_wiener",
    "Danse.C119_refuted_normalised",
    "Danse.C119_refuted_default",
    "Danse.C119_external",
    "Danse.C119_times",
    "Danse.C119_topology",
    "Danse.C119_completes",
    "Danse.C119_completes_gevd"
   ],
   "note": "NaN is modelled as an error. The rank test and the linear algebra library are parameters. The two refuted theorems state where the code disagrees with the Wiener solution (DESIGN.md, Disagreements 97 and 98)."
  },
  {
   "property": "C120",
   "status": "proved",
   "theorems": [
    "Danse.C120_resume",
    "Danse.C120_kept",
    "Danse.C120_ends",
    "Danse.C120_refuted_incomplete",
    "Danse.C120_refuted_parameters",
    "Danse.C120_refuted_no_plot",
    "Danse.C120_refuted_no_plot_stops",
    "Danse.C120_refuted_declined",
    "Danse.C120_refuted_names",
    "Danse.C120_names",
    "Danse.C120_refuted_rounding"
   ],
   "note": "Only the files matter; a crash may fall between any two actions on them. The refuted theorems give the cases in which a battery does not get its results (DESIGN.md, Disagreements 99 to 102)."
  },
  {
   "property": "C121",
   "status": "proved",
   "theorems": [
    "Danse.C121_level",
    "Danse.C121_exception",
    "Danse.C121_adapted",
    "Danse.C121_rule",
    "Danse.C121_rule_gevd",
    "Danse.C121_refuted_default"
   ],
   "note": "Exact arithmetic; phase factors that depend on times and buffer flags only (no SRO estimation). The rank test is assumed not to depend on the level: matrix_rank has a relative tolerance; np.allclose in the Hermitian test is satisfied exactly. C121_refuted_default gives the counterexample for use1stFrameAsBasis off (DESIGN.md, Disagreement 103)."
  },
  {
   "property": "C122",
   "status": "proved",
   "theorems": [
    "Danse.C122_level",
    "Danse.C122_exception",
    "Danse.C122_adapted",
    "Danse.C122_refuted_default"
   ],
   "note": "Exact arithmetic, as in C121 (rank test relative, so that it does not depend on the level). C122_refuted_default gives the counterexample for use1stFrameAsBasis off (DESIGN.md, Disagreement 104)."
  },
  {
   "property": "C123",
   "status": "proved",
   "theorems": [
    "Danse.C123_isolated"
   ],
   "note": "Holds for the model run of C117 (online DANSE, any synthesis and rank test)."
  },
  {
   "property": "C124",
   "status": "proved",
   "theorems": [
    "Danse.C124_redundant",
    "Danse.C124_dead_sensor",
    "Danse.C124_twin_sensors",
    "Danse.C124_dead_node"
   ],
   "note": "Exact arithmetic; hypothesis FullRankTest: the rank test passes only matrices of full rank in all bins. An example shows that the default setting (use1stFrameAsBasis off) is not blocked (DESIGN.md, Disagreement 105)."
  },
  {
   "property": "C125",
   "status": "proved",
   "theorems": [
    "Danse.C125_gains",
    "Danse.C125_same_output",
    "Danse.C125_exception",
    "Danse.C125_rank",
    "Danse.C125_rule",
    "Danse.C125_rule_gevd",
    "Danse.C125_refuted_default"
   ],
   "note": "Exact arithmetic. GainFree (the update rule and the rank test make up for gains) is proved for the Wiener filter and the exact rank test (C125_rule, C125_rank), and for the GEVD update from the normalisation of the library's eigenvectors (C125_rule_gevd). Refuted for the default settings (C125_refuted_default; DESIGN.md, Disagreement 106)."
  },
  {
   "property": "C126",
   "status": "proved",
   "theorems": [
    "Danse.C126_ends_like_run",
    "Danse.C126_adds_up",
    "Danse.C126_ends_whole",
    "Danse.C126_refuted_batch",
    "Danse.C126_ti_pruned_again",
    "Danse.C126_ti_same_schedule",
    "Danse.C126_ti_ends_like_run",
    "Danse.C126_ti_adds_up",
    "Danse.C126_ti_sync",
    "Danse.C126_ti_completes",
    "Danse.C126_refuted_efficient"
   ],
   "note": "Exact arithmetic; the best-performance reference is given (it is modelled in BatchSig). For whole-chunk broadcasts only the normal end is proved (C126_ends_whole): the sum is refuted by C30_refuted_speech_onset and C85_whole_chunk_refuted. Refuted parts: efficient broadcasts with different clocks (C126_refuted_efficient; DESIGN.md, Disagreement 108), batch mode (C126_refuted_batch; 107)."
  },
  {
   "property": "C127",
   "status": "proved",
   "theorems": [
    "Danse.C127_best",
    "Danse.C127_beats_sensor",
    "Danse.C127_beats_local",
    "Danse.C127_ti_best",
    "Danse.C127_ti_beats"
   ],
   "note": "Exact arithmetic; the rank test rejects singular matrices; initial matrices positive semidefinite or use1stFrameAsBasis. Comparison with local processing only with use1stFrameAsBasis: otherwise the two covariance matrices start from matrices of different weight (Disagreement 109). Normalised TI-DANSE rows are excluded (refuted in C119)."
  },
  {
   "property": "C128",
   "status": "proved",
   "theorems": [
    "Danse.C128_heard",
    "Danse.C128_wiener"
   ],
   "note": "Exact arithmetic, synchronous clocks, broadcasts that are not 'efficient'. With L not a divisor of the frame shift the neighbours' frames end up to L-1 samples earlier (C78_neighbour_frame)."
  },
  {
   "property": "C129",
   "status": "proved",
   "theorems": [
    "Danse.C129_frozen",
    "Danse.C129_output"
   ],
   "note": "Exact arithmetic. The output statement is for fully connected DANSE with synchronous nodes."
  },
  {
   "property": "C130",
   "status": "proved",
   "theorems": [
    "Danse.C130_only_adds",
    "Danse.C130_instance",
    "Danse.C130_rows",
    "Danse.C130_rows_single",
    "Danse.C130_wiener",
    "Danse.C130_wiener_single",
    "Danse.C130_best",
    "Danse.C130_order",
    "Danse.C130_heard",
    "Danse.C130_heard_single",
    "Danse.C130_same"
   ],
   "note": "Exact arithmetic. (c), (e), (g) need averaging from the initial matrices or the network-wide VAD equal to that of the node (otherwise the first frame can be taken as basis of the wrong matrix, C23). (h) needs use1stFrameAsBasis and equal VAD. SRO estimation and covMatInitType='batch_estimates' are not modelled in this run."
  },
  {
   "property": "C131",
   "status": "proved",
   "theorems": [
    "Danse.C131_completes",
    "Danse.C131_danse",
    "Danse.C131_danse_gevd",
    "Danse.C131_adds",
    "Danse.C131_centr"
   ],
   "note": "Exact arithmetic; rank test rejects singular matrices (MWF). The single-sensor-broadcast estimate raises ValueError in a network that is not fully connected (Disagreement 110)."
  },
  {
   "property": "C132",
   "status": "proved",
   "theorems": [
    "Danse.C132_completes",
    "Danse.C132_danse",
    "Danse.C132_danse_gevd",
    "Danse.C132_adds",
    "Danse.C132_centr"
   ],
   "note": "Exact arithmetic; rank test rejects singular matrices (MWF). Nodes with different sampling rates are not covered here (C80-C85 cover parts of that)."
  },
  {
   "property": "C133",
   "status": "proved",
   "theorems": [
    "Danse.C133_completes",
    "Danse.C133_same_schedule",
    "Danse.C133_driver",
    "Danse.C133_tidanse",
    "Danse.C133_driver_completes"
   ],
   "note": "Exact arithmetic. Nodes with different clocks: the re-runs can have another schedule (C126_refuted_efficient). If L does not divide Ns the run fails (C92_undivided_refuted)."
  },
  {
   "property": "C134",
   "status": "proved",
   "theorems": [
    "Danse.C134_neighbour_frame",
    "Danse.C134_heard",
    "Danse.C134_wiener"
   ],
   "note": "Exact arithmetic. The version of C128 (few-sample broadcasts at every L samples) for efficient broadcasts; it needs that the shift divides the frame length, so that the first broadcast (which carries everything since the start) is not longer than a frame."
  },
  {
   "property": "C135",
   "status": "proved",
   "theorems": [
    "Danse.C135_pauses",
    "Danse.C135_half_kept",
    "Danse.C135_short"
   ],
   "note": "Rational arithmetic; the draws are an argument (any numbers in [0, 1), scaled as np.random.uniform does). C64 covers the regular pauses."
  },
  {
   "property": "C136",
   "status": "proved",
   "theorems": [
    "Danse.C136_error_curve",
    "Danse.C136_error_between",
    "Danse.C136_error_settles",
    "Danse.C136_settling",
    "Danse.C136_perfect_not_rated",
    "Danse.C136_rated",
    "Danse.C136_residual",
    "Danse.C136_power_bounds",
    "Danse.C136_snr_curve",
    "Danse.C136_smoothed",
    "Danse.C136_smoothed_edge"
   ],
   "note": "Exact real arithmetic; the residual shift (gen_offset) is an arbitrary function here, see C137. Disagreements: C136_perfect_not_rated, C136_smoothed_edge, and the end of the compared section (Tc + T_max) in C136_rated."
  },
  {
   "property": "C137",
   "status": "proved",
   "theorems": [
    "Danse.C137_shift",
    "Danse.C137_advance",
    "Danse.C137_delay_truncates"
   ],
   "note": "Any field with a primitive root of unity and an involution; loop with fuel, shown to be sufficient. Whole shifts only: a fractional shift is a phase ramp with no closed form in the time domain. Disagreement: C137_delay_truncates."
  },
  {
   "property": "C138",
   "status": "proved",
   "theorems": [
    "Danse.C138_files",
    "Danse.C138_ends_iff",
    "Danse.C138_stopped",
    "Danse.C138_refuted_batch_ti"
   ],
   "note": "Files are values (kind, node, rate, 16-bit samples); folders and overwriting are not modelled here. Disagreement: C138_refuted_batch_ti."
  },
  {
   "property": "C139",
   "status": "proved",
   "theorems": [
    "Danse.C139_frozen",
    "Danse.C139_frozen_local",
    "Danse.C139_dead_sensor",
    "Danse.C139_twin_sensors",
    "Danse.C139_others_dead"
   ],
   "note": "Exact arithmetic; C139_dead_sensor, C139_twin_sensors and C139_others_dead assume use1stFrameAsBasis and a test that passes full-rank matrices only; C139_others_dead is for synchronous nodes (the event schedule is the generated one)."
  },
  {
   "property": "C140",
   "status": "proved",
   "theorems": [
    "Danse.C140_remove"
   ],
   "note": "Exact arithmetic, synchronous nodes, generated schedules (upTDANSEnodesInTurns off: with turns the removed node would keep its turn)."
  },
  {
   "property": "C141",
   "status": "proved",
   "theorems": [
    "Danse.C141_gain",
    "Danse.C141_passthrough",
    "Danse.C141_idle"
   ],
   "note": "Exact arithmetic over any field with an involution; desSigProcessingType 'wola'. C141_gain holds for any schedule; C141_passthrough and C141_idle for the generated schedule of synchronous nodes, for samples m >= N-Ns (few-samples broadcasts) or m >= N (whole-chunk broadcasts) up to the last complete frame. The exception is node 0 with updates in turns (C119_refuted_default)."
  },
  {
   "property": "C142",
   "status": "proved",
   "theorems": [
    "Danse.C142_heard",
    "Danse.C142_few",
    "Danse.C142_selected",
    "Danse.C142_ti",
    "Danse.C142_ti_selected"
   ],
   "note": "Exact arithmetic over any field with an involution. C142_heard, C142_few, C142_ti: any event list; C142_selected, C142_ti_selected: generated schedules of synchronous nodes, N = 2 Ns, equal analysis and synthesis windows."
  },
  {
   "property": "C143",
   "status": "proved",
   "theorems": [
    "Danse.C143_order",
    "Danse.C143_exception",
    "Danse.C143_eye",
    "Danse.C143_rank",
    "Danse.C143_rule",
    "Danse.C143_rule_gevd",
    "Danse.C143_refuted_default"
   ],
   "note": "Exact arithmetic. C143_rule: update_w; C143_rule_gevd: update_w_gevd, given eigenvectors that follow the order (distinct eigenvalues). C143_refuted_default is the counterexample for initial matrices that are not the same for all sensors."
  },
  {
   "property": "C144",
   "status": "proved",
   "theorems": [
    "Danse.C144_order",
    "Danse.C144_exception",
    "Danse.C144_refuted_default"
   ],
   "note": "Exact arithmetic. The update rules of the code meet the hypothesis (C143_rule, C143_rule_gevd). C144_refuted_default: initial matrices that are not the same for all sensors."
  },
  {
   "property": "C145",
   "status": "proved",
   "theorems": [
    "Danse.C145_time",
    "Danse.C145_raises",
    "Danse.C145_sources",
    "Danse.C145_window",
    "Danse.C145_history",
    "Danse.C145_failure",
    "Danse.C145_unknown",
    "Danse.C145_config",
    "Danse.C145_refuted_nonempty",
    "Danse.C145_refuted_atomic"
   ],
   "note": "Exact arithmetic: in floating point floor((i/fs)*fs) can be i-1 (e.g. i=1001, fs=16000). float() is a parameter. C145_refuted_nonempty, C145_refuted_atomic, C145_unknown: what the code does not ensure."
  },
  {
   "property": "C146",
   "status": "proved",
   "theorems": [
    "Danse.C146_battery",
    "Danse.C146_refs",
    "Danse.C146_name",
    "Danse.C146_table",
    "Danse.C146_refuted_ignored",
    "Danse.C146_again",
    "Danse.C146_refuted_collision"
   ],
   "note": "One metric and one entry of TO_PLOT. int() of strings with blanks or a plus sign is not modelled. C146_refuted_collision, C146_refuted_ignored: what the code does not ensure."
  },
  {
   "property": "C147",
   "status": "proved",
   "theorems": [
    "Danse.C147_read",
    "Danse.C147_ok",
    "Danse.C147_again",
    "Danse.C147_refuted_once"
   ],
   "note": "load_audio and segment_axis are a parameter. node_ids given as a string is the collection of its characters. C147_refuted_once: what the code does not ensure."
  },
  {
   "property": "C148",
   "status": "proved",
   "theorems": [
    "Danse.C148_bands",
    "Danse.C148_partition",
    "Danse.C148_energy",
    "Danse.C148_centres",
    "Danse.C148_nonempty",
    "Danse.C148_refuted_empty",
    "Danse.C148_last",
    "Danse.C148_stoi"
   ],
   "note": "Exact reals. C148_refuted_empty: what the code does not ensure."
  },
  {
   "property": "C149",
   "status": "proved",
   "theorems": [
    "Danse.C149_blocks",
    "Danse.C149_zero",
    "Danse.C149_mean",
    "Danse.C149_refuted_tail",
    "Danse.C149_errors"
   ],
   "note": "Exact rationals. The three kinds of estimates go through the same lines. C149_refuted_tail: what the code does not ensure."
  },
  {
   "property": "C150",
   "status": "proved",
   "theorems": [
    "Danse.C150_delay",
    "Danse.C150_magnitude",
    "Danse.C150_refuted_netwide",
    "Danse.C150_off",
    "Danse.C150_given",
    "Danse.C150_oracle",
    "Danse.C150_relative",
    "Danse.C150_errors"
   ],
   "note": "Exact complex numbers; node indices in range. C150_refuted_netwide: what the code does not ensure; C150_oracle, C150_relative are about the functions called in the order that their comments say."
  },
  {
   "property": "C151",
   "status": "proved",
   "theorems": [
    "Danse.C151_value",
    "Danse.C151_refuted_db",
    "Danse.C151_scale",
    "Danse.C151_flags",
    "Danse.C151_orientation",
    "Danse.C151_channels"
   ],
   "note": "Real numbers; boolean flags; NumPy divisions by zero as values. C151_refuted_db: what the code does not ensure."
  },
  {
   "property": "C152",
   "status": "proved",
   "theorems": [
    "Danse.C152_shape",
    "Danse.C152_values",
    "Danse.C152_immediate",
    "Danse.C152_errors",
    "Danse.C152_refuted_decay"
   ],
   "note": "Random numbers given; real numbers. C152_refuted_decay: what the code does not ensure."
  }
 ]
}
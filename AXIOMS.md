# Axioms of the property theorems

Generated by `tools/axioms.py` from `#print axioms`.

| theorem | axioms |
|---|---|
| `Verif.Props.C01_golay_systematic` | propext, Classical.choice, Quot.sound |
| `Verif.Props.C01_golay2312_corrects_three` | propext, Classical.choice, Quot.sound |
| `Verif.Props.C01_checkGolayBlock_corrects_three` | propext, Classical.choice, Quot.sound |
| `Verif.Props.C02_golay_perfect` | propext, Classical.choice, Quot.sound |
| `Verif.Props.C02_golay2312_nearest` | propext, Classical.choice, Quot.sound |
| `Verif.Props.C03_hamming1511_nearest` | propext, Classical.choice, Quot.sound |
| `Verif.Props.C03_hamming1511_7100_nearest` | propext, Classical.choice, Quot.sound |
| `Verif.Props.C04_only_low_bits` | propext, Classical.choice, Quot.sound |
| `Verif.Props.C05_checkGolayBlock_exact` | propext, Classical.choice, Quot.sound |
| `Verif.Props.C05_checkGolayBlock_partial` | propext, Classical.choice, Quot.sound |
| `Verif.Props.C05_upper_bits_not_ignored` | propext |
| `Verif.Props.C06_ambeC0_corrects_three` | propext, Classical.choice, Quot.sound |
| `Verif.Props.C07_imbe7200_round_trip` | propext, Classical.choice, Quot.sound |
| `Verif.Props.C07_imbe7200_frame_exists` | propext, Classical.choice, Quot.sound |
| `Verif.Props.C08_imbe7100_round_trip` | propext, Classical.choice, Quot.sound |
| `Verif.Props.C08_imbe7100_frame_exists` | propext, Classical.choice, Quot.sound |
| `Verif.Props.C09_ambe_round_trip` | propext, Classical.choice, Quot.sound |
| `Verif.Props.C09_ambe_frame_exists` | propext, Quot.sound |
| `Verif.Props.C09_check_bit_counted` | propext, Classical.choice, Quot.sound |
| `Verif.Props.C10_demod7200_involution` | propext, Classical.choice, Quot.sound |
| `Verif.Props.C10_demod7100_involution` | propext, Classical.choice, Quot.sound |
| `Verif.Props.C10_demodAmbe_involution` | propext, Classical.choice, Quot.sound |
| `Verif.Props.C11_pn_no_overflow` | propext, Classical.choice, Quot.sound |
| `Verif.Props.C11_demod_keeps_bits` | propext, Classical.choice, Quot.sound |
| `Verif.Props.C12_convert_moves_bits` | propext, Classical.choice, Quot.sound |
| `Verif.Props.C12_convert_permutation` | propext, Classical.choice, Quot.sound |
| `Verif.Props.C12_convert_fundamental` | propext, Classical.choice, Quot.sound |
| `Verif.Props.C13_imbe7200_counts` | propext, Classical.choice, Quot.sound |
| `Verif.Props.C13_imbe7100_counts` | propext, Classical.choice, Quot.sound |
| `Verif.Props.C13_ambe_counts` | propext, Classical.choice, Quot.sound |
| `Verif.Props.C14_invalid_fundamental` | propext, Quot.sound |
| `Verif.Props.C14_valid_fundamental` | propext, Classical.choice, Quot.sound |
| `Verif.Props.C15_allocation_bijective` | propext, Classical.choice, Quot.sound |
| `Verif.Props.C15_distribution` | propext, Classical.choice, Quot.sound |
| `Verif.Props.C15_voicing` | propext, Classical.choice, Quot.sound |
| `Verif.Props.C16_decode_safe` | propext, Classical.choice, Quot.sound |
| `Verif.Props.C16_decode_exception` | propext, Classical.choice, Quot.sound |
| `Verif.Props.C17_decode_safe` | propext, Classical.choice, Quot.sound |
| `Verif.Props.C17_decode_exception` | propext, Classical.choice, Quot.sound |
| `Verif.Props.C18_hypothesis_satisfiable` | propext, Classical.choice, Quot.sound |
| `Verif.Props.C18_decode_safe` | propext, Classical.choice, Quot.sound |
| `Verif.Props.C18_decode_exception` | propext, Classical.choice, Quot.sound |
| `Verif.Props.C19_classification` | propext, Classical.choice, Quot.sound |
| `Verif.Props.C19_tone_iff` | propext, Classical.choice, Quot.sound |
| `Verif.Props.C19_speech_parameters` | propext, Classical.choice, Quot.sound |
| `Verif.Props.C20_classification` | propext, Classical.choice, Quot.sound |
| `Verif.Props.C20_every_tone_index` | propext, Classical.choice, Quot.sound |
| `Verif.Props.C20_speech_parameters` | propext, Classical.choice, Quot.sound |
| `Verif.Props.C21_repeat_rule` | propext, Classical.choice, Quot.sound |
| `Verif.Props.C21_repeat_counter` | propext, Classical.choice, Quot.sound |
| `Verif.Props.C22_muting_exact` | propext, Classical.choice, Quot.sound |
| `Verif.Props.C22_muting_partial` | propext, Classical.choice, Quot.sound |
| `Verif.Props.C22_fifth_repeat_not_muted` | propext, Classical.choice, Quot.sound |
| `Verif.Props.C23_counter_bound` | propext, Classical.choice, Quot.sound |
| `Verif.Props.C23_muting_exact` | propext, Classical.choice, Quot.sound |
| `Verif.Props.C23_fourth_consecutive` | propext, Classical.choice, Quot.sound |
| `Verif.Props.C23_tone_does_not_interrupt` | propext, Classical.choice, Quot.sound |
| `Verif.Props.C24_imbe_reuse_partial` | propext, Classical.choice, Quot.sound |
| `Verif.Props.C24_imbe_default_model` | propext, Classical.choice, Quot.sound |
| `Verif.Props.C24_ambe_reuse` | propext, Classical.choice, Quot.sound |
| `Verif.Props.C25_imbe_format` | propext, Quot.sound |
| `Verif.Props.C25_ambe2450_format` | propext, Quot.sound |
| `Verif.Props.C25_ambe2400_format` | propext, Quot.sound |
| `Verif.Props.C25_status_size` | propext, Classical.choice, Quot.sound |
| `Verif.Props.C26_imbe7200_pipeline` | propext, Quot.sound |
| `Verif.Props.C26_imbe7100_pipeline` | propext, Quot.sound |
| `Verif.Props.C26_ambe_pipeline` | propext, Quot.sound |
| `Verif.Props.C26_imbe7200_end_to_end` | propext, Classical.choice, Quot.sound |
| `Verif.Props.C26_imbe7100_end_to_end` | propext, Classical.choice, Quot.sound |
| `Verif.Props.C26_ambe_end_to_end` | propext, Classical.choice, Quot.sound |
| `Verif.Props.C26_inert_arguments` | propext, Classical.choice, Quot.sound |
| `Verif.Props.C26_ambe2400_errs_inert` | propext, Classical.choice, Quot.sound |
| `Verif.Props.C27_elementwise` | propext, Classical.choice, Quot.sound |
| `Verif.Props.C27_short_data` | propext, Classical.choice, Quot.sound |
| `Verif.Props.C27_short_frame` | propext, Quot.sound |
| `Verif.Props.C27_synthesis` | propext, Classical.choice, Quot.sound |
| `Verif.Props.C28_value` | propext, Classical.choice, Quot.sound |
| `Verif.Props.C28_infinite` | propext, Classical.choice, Quot.sound |
| `Verif.Props.C28_monotone` | propext, Classical.choice, Quot.sound |
| `Verif.Props.C28_odd` | propext, Classical.choice, Quot.sound |
| `Verif.Props.C28_sse2` | propext, Classical.choice, Quot.sound |
| `Verif.Props.C28_nan` | propext, Classical.choice, Quot.sound |
| `Verif.Props.C28_buffers` | propext, Classical.choice, Quot.sound |
| `Verif.Props.C29_bound` | propext, Classical.choice, Quot.sound |
| `Verif.Props.C29_short_defined` | propext, Classical.choice, Quot.sound |
| `Verif.Props.C29_clip_nan` | propext, Classical.choice, Quot.sound |
| `Verif.Props.C29_clip_value` | propext, Classical.choice, Quot.sound |
| `Verif.Props.C29_nan_source` | propext, Classical.choice, Quot.sound |
| `Verif.Props.C30_stream` | propext, Classical.choice, Quot.sound |
| `Verif.Props.C30_unseeded` | propext, Classical.choice, Quot.sound |
| `Verif.Props.C30_draws` | propext, Classical.choice, Quot.sound |
| `Verif.Props.C30_bound` | propext, Classical.choice, Quot.sound |
| `Verif.Props.C31_step` | propext, Classical.choice, Quot.sound |
| `Verif.Props.C31_windows` | propext, Classical.choice, Quot.sound |
| `Verif.Props.C31_plain` | propext, Classical.choice, Quot.sound |
| `Verif.Props.C31_seed` | propext |
| `Verif.Props.C32_excitation_unique` | propext, Quot.sound |
| `Verif.Props.C32_imbe_replay` | propext, Classical.choice, Quot.sound |
| `Verif.Props.C32_ambe_replay` | propext, Classical.choice, Quot.sound |
| `Verif.Props.C33_table` | propext, Classical.choice, Quot.sound |
| `Verif.Props.C33_phase` | propext, Classical.choice, Quot.sound |
| `Verif.Props.C33_silence` | propext, Classical.choice, Quot.sound |
| `Verif.Props.C33_dstar` | propext, Classical.choice, Quot.sound |
| `Verif.Props.C34_tone_becomes_noise` | propext, Classical.choice, Quot.sound |
| `Verif.Props.C34_tones_indistinguishable` | propext, Classical.choice, Quot.sound |
| `Verif.Props.C34_witness` | propext, Classical.choice, Quot.sound |
| `Verif.Props.C35_imbe` | propext, Classical.choice, Quot.sound |
| `Verif.Props.C35_ambe` | propext, Classical.choice, Quot.sound |
| `Verif.Props.C36_invariant` | propext, Classical.choice, Quot.sound |
| `Verif.Props.C36_imbe_threshold` | propext, Classical.choice, Quot.sound |
| `Verif.Props.C36_ambe_threshold` | propext, Classical.choice, Quot.sound |
| `Verif.Props.C37_alone` | propext, Classical.choice, Quot.sound |
| `Verif.Props.C37_defined` | propext, Classical.choice, Quot.sound |
| `Verif.Props.C37_schedules` | propext, Classical.choice, Quot.sound |
| `Verif.Props.C37_program` | propext, Classical.choice, Quot.sound |
| `Verif.Props.C37_calls` | propext, Quot.sound |
| `Verif.Props.C37_seed` | propext, Classical.choice, Quot.sound |
| `Verif.Props.C38_switch` | propext, Classical.choice, Quot.sound |
| `Verif.Props.C38_after_imbe` | propext, Classical.choice, Quot.sound |
| `Verif.Props.C38_same_family` | propext, Classical.choice, Quot.sound |
| `Verif.Props.C39_safe` | propext, Classical.choice, Quot.sound |
| `Verif.Props.C39_spectrum` | propext, Classical.choice, Quot.sound |
| `Verif.Props.C39_only_unvoiced` | propext, Classical.choice, Quot.sound |
| `Verif.Props.C39_defined` | propext, Classical.choice, Quot.sound |
| `Verif.Props.C39_partition` | propext, Classical.choice, Quot.sound |
| `Verif.Props.C39_energy` | propext, Classical.choice, Quot.sound |
| `Verif.Props.C40_fast` | propext, Quot.sound |
| `Verif.Props.C40_samples` | propext, Classical.choice, Quot.sound |
| `Verif.Props.C40_standalone` | propext, Classical.choice, Quot.sound |
| `Verif.Props.C40_reconstruct` | propext, Classical.choice, Quot.sound |
| `Verif.Props.C41_frame` | propext, Classical.choice, Quot.sound |
| `Verif.Props.C41_clean` | propext, Classical.choice, Quot.sound |
| `Verif.Props.C41_clean_finite` | propext, Classical.choice, Quot.sound |
| `Verif.Props.C41_infinite_forced` | propext, Classical.choice, Quot.sound |
| `Verif.Props.C41_energy` | propext, Classical.choice, Quot.sound |
| `Verif.Props.C41_handoff` | none |
| `Verif.Props.C41_energy_real` | propext, Classical.choice, Quot.sound |
| `Verif.Props.C41_bound` | propext, Classical.choice, Quot.sound |
| `Verif.Props.C41_required` | propext, Classical.choice, Quot.sound |
| `Verif.Props.C41_required_float` | propext, Classical.choice, Quot.sound |
| `Verif.Props.C41_required_differs` | propext, Classical.choice, Quot.sound |
| `Verif.Props.C42_bound_partial` | propext, Classical.choice, Quot.sound |
| `Verif.Props.C42_overflow` | propext, Classical.choice, Quot.sound |
| `Verif.Props.C43_nonzero` | propext, Classical.choice, Quot.sound |
| `Verif.Props.C43_defined` | propext, Classical.choice, Quot.sound |
| `Verif.Props.C43_exact` | propext, Classical.choice, Quot.sound |
| `Verif.Props.C43_energy` | propext, Classical.choice, Quot.sound |
| `Verif.Props.C43_zero` | propext, Classical.choice, Quot.sound |
| `Verif.Props.C44_mean_2450` | propext, Classical.choice, Quot.sound |
| `Verif.Props.C44_mean_2400` | propext, Classical.choice, Quot.sound |
| `Verif.Props.C44_shape_invariant_2450` | propext, Classical.choice, Quot.sound |
| `Verif.Props.C44_shape_invariant_2400` | propext, Classical.choice, Quot.sound |
| `Verif.Props.C45_contract_imbe` | propext, Classical.choice, Quot.sound |
| `Verif.Props.C45_contract_2450` | propext, Classical.choice, Quot.sound |
| `Verif.Props.C45_contract_2400` | propext, Classical.choice, Quot.sound |
| `Verif.Props.C45_imbe` | propext, Classical.choice, Quot.sound |
| `Verif.Props.C45_ambe` | propext, Classical.choice, Quot.sound |
| `Verif.Props.C45_any` | propext, Classical.choice, Quot.sound |
| `Verif.Props.C45_runs` | propext, Classical.choice, Quot.sound |
| `Verif.Props.C46_frame` | propext, Classical.choice, Quot.sound |
| `Verif.Props.C46_continuous` | propext, Classical.choice, Quot.sound |
| `Verif.Props.C46_phase` | propext, Classical.choice, Quot.sound |
| `Verif.Props.C46_speech` | propext, Classical.choice, Quot.sound |
| `Verif.Props.C46_track_exact` | propext, Classical.choice, Quot.sound |
| `Verif.Props.C46_low` | propext, Classical.choice, Quot.sound |
| `Verif.Props.C46_window` | propext, Classical.choice, Quot.sound |
| `Verif.Props.C46_steady` | propext, Classical.choice, Quot.sound |
| `Verif.Props.C47_memory_safe` | propext, Classical.choice, Quot.sound |
| `Verif.Props.C47_defined` | propext, Classical.choice, Quot.sound |
| `Verif.Props.C48_reachable` | propext, Quot.sound |
| `Verif.Props.C48_invisible` | propext, Quot.sound |
| `Verif.Props.C48_programs` | propext, Quot.sound |
| `Verif.Props.C48_parts` | propext, Quot.sound |
| `Verif.Props.C49_bijective` | propext, Classical.choice, Quot.sound |
| `Verif.Props.C49_never_zero` | propext, Classical.choice, Quot.sound |
| `Verif.Props.C49_periodic` | propext, Classical.choice, Quot.sound |
| `Verif.Props.C50_copy` | propext, Quot.sound |
| `Verif.Props.C50_null` | propext |
| `Verif.Props.C50_size` | propext, Quot.sound |
| `Verif.Props.C51_program_defined` | propext, Classical.choice, Quot.sound |
| `Verif.Props.C52_reserved_bits` | propext, Quot.sound |
| `Verif.Props.C53_imbe` | propext, Classical.choice, Quot.sound |
| `Verif.Props.C53_2450` | propext, Classical.choice, Quot.sound |
| `Verif.Props.C53_2400` | propext, Classical.choice, Quot.sound |
| `Verif.Props.C53_unique_imbe` | propext, Classical.choice, Quot.sound |
| `Verif.Props.C53_unique_ambe` | propext, Classical.choice, Quot.sound |
| `Verif.Props.C54_imbe` | propext, Classical.choice, Quot.sound |
| `Verif.Props.C54_ambe` | propext, Classical.choice, Quot.sound |
| `Verif.Props.C54_stale_element` | propext, Classical.choice, Quot.sound |
| `Verif.Props.C55_program` | propext, Classical.choice, Quot.sound |
| `Verif.Props.C55_enhance` | propext, Classical.choice, Quot.sound |
| `Verif.Props.C55_synth` | propext, Classical.choice, Quot.sound |
| `Verif.Props.C55_scale_bitwise` | propext, Classical.choice, Quot.sound |
| `Verif.Props.C55_normalize_bitwise` | propext, Classical.choice, Quot.sound |
| `Verif.Props.C55_overlap_bitwise` | propext, Classical.choice, Quot.sound |
| `Verif.Props.C55_neon_short` | propext, Classical.choice, Quot.sound |
| `Verif.Props.C55_neon_nan` | propext, Classical.choice, Quot.sound |
| `Verif.Props.C55_dispatch` | propext, Classical.choice, Quot.sound |
| `Verif.Props.C55_sum_not_bitwise` | propext, Classical.choice, Quot.sound |
| `Verif.Props.C55_voiced_not_bitwise` | propext, Classical.choice, Quot.sound |
| `Verif.Props.C56_memory_safe` | propext, Classical.choice, Quot.sound |
| `Verif.Props.C56_program_defined` | propext, Classical.choice, Quot.sound |
| `Verif.Props.C56_bound` | propext, Classical.choice, Quot.sound |
| `Verif.Props.C57_defined` | propext, Classical.choice, Quot.sound |
| `Verif.Props.C57_data` | propext, Quot.sound |
| `Verif.Props.C57_ambe_data` | propext, Quot.sound |
| `Verif.Props.C57_decimal` | propext, Classical.choice, Quot.sound |
| `Verif.Props.C57_frame` | propext, Classical.choice, Quot.sound |
| `Verif.Props.C57_data_injective` | propext, Quot.sound |
| `Verif.Props.C57_frame_injective` | propext, Classical.choice, Quot.sound |
| `Verif.Props.C58_alloc_partial` | propext, Classical.choice, Quot.sound |
| `Verif.Props.C58_setup_unchecked` | propext, Classical.choice, Quot.sound |
| `Verif.Props.C58_complete` | propext, Classical.choice, Quot.sound |
| `Verif.Props.C58_free` | propext, Classical.choice, Quot.sound |
| `Verif.Props.C58_frames` | propext, Classical.choice, Quot.sound |
| `Verif.Props.C59_ambe_rate` | propext, Classical.choice, Quot.sound |
| `Verif.Props.C59_ambe_counts` | propext, Classical.choice, Quot.sound |
| `Verif.Props.C59_imbe_eleven` | propext, Classical.choice, Quot.sound |
| `Verif.Props.C59_imbe_recovers` | propext, Classical.choice, Quot.sound |
| `Verif.Props.C59_imbe_twelve_mutes` | propext, Classical.choice, Quot.sound |
| `Verif.Props.C59_imbe_four_not_enough` | propext, Classical.choice, Quot.sound |
| `Verif.Props.C60_no_stale_handoff` | propext, Classical.choice, Quot.sound |
| `Verif.Props.C60_energy` | propext, Quot.sound |
| `Verif.Props.C60_energy_imbe` | propext, Quot.sound |
| `Verif.Props.C60_replay` | propext, Classical.choice, Quot.sound |
| `Verif.Props.C60_energy_real` | propext, Classical.choice, Quot.sound |
| `Verif.Props.C60_voicing_real` | propext, Classical.choice, Quot.sound |
| `Verif.Props.C61_setup` | propext, Quot.sound |
| `Verif.Props.C61_run` | propext, Classical.choice, Quot.sound |
| `Verif.Props.C61_env` | propext, Classical.choice, Quot.sound |
| `Verif.Props.C62_forward` | propext, Classical.choice, Quot.sound |
| `Verif.Props.C62_bins` | propext, Classical.choice, Quot.sound |
| `Verif.Props.C62_real` | propext, Classical.choice, Quot.sound |
| `Verif.Props.C62_parseval` | propext, Classical.choice, Quot.sound |
| `Verif.Props.C62_constants` | propext, Classical.choice, Quot.sound |
| `Verif.Props.C63_backward` | propext, Classical.choice, Quot.sound |
| `Verif.Props.C63_roundtrip` | propext, Classical.choice, Quot.sound |
| `Verif.Props.C63_bijective` | propext, Classical.choice, Quot.sound |
| `Verif.Props.C64_spectrum` | propext, Classical.choice, Quot.sound |
| `Verif.Props.C64_energy` | propext, Classical.choice, Quot.sound |
| `Verif.Props.C65_finite_ambe_partial` | propext, Classical.choice, Quot.sound |
| `Verif.Props.C65_finite_partial` | propext, Classical.choice, Quot.sound |
| `Verif.Props.C65_transform_bound` | propext, Classical.choice, Quot.sound |
| `Verif.Props.C65_erasure_parms` | propext, Classical.choice, Quot.sound |
| `Verif.Props.C65_erasure_latent_nan` | propext, Classical.choice, Quot.sound |
| `Verif.Props.C65_finite_hypothesis_satisfiable` | propext, Classical.choice, Quot.sound |
| `Verif.Props.C65_nan_samples` | propext, Classical.choice, Quot.sound |
| `Verif.Props.C65_short_undefined` | propext, Classical.choice, Quot.sound |
| `Verif.Props.C65_short_sse2` | propext, Classical.choice, Quot.sound |
| `Verif.Props.C65_witness` | propext, Classical.choice, Quot.sound |
| `Verif.Props.C65_ambe_nan_samples` | propext, Classical.choice, Quot.sound |
| `Verif.Props.C65_ambe_witness` | propext, Classical.choice, Quot.sound |
| `Verif.Props.C65_hypothesis_satisfiable` | propext, Classical.choice, Quot.sound |
| `Verif.Props.C65_finite_imbe_partial` | propext, Classical.choice, Quot.sound |
| `Verif.Props.C66_history` | propext, Classical.choice, Quot.sound |
| `Verif.Props.C66_valid` | propext, Classical.choice, Quot.sound |
| `Verif.Props.C66_waveform` | propext, Classical.choice, Quot.sound |
| `Verif.Props.C66_invalid` | propext, Classical.choice, Quot.sound |
| `Verif.Props.C66_hypothesis_satisfiable` | propext, Classical.choice, Quot.sound |
| `Verif.Props.C67_tones_transparent` | propext, Classical.choice, Quot.sound |
| `Verif.Props.C68_forward` | propext, Classical.choice, Quot.sound |
| `Verif.Props.C68_forward_ends` | propext, Classical.choice, Quot.sound |
| `Verif.Props.C68_backward` | propext, Classical.choice, Quot.sound |
| `Verif.Props.C68_roundtrip` | propext, Classical.choice, Quot.sound |
| `Verif.Props.C68_hypothesis_satisfiable` | propext, Classical.choice, Quot.sound |
| `Verif.Props.C69_log_amplitudes` | propext, Classical.choice, Quot.sound |
| `Verif.Props.C69_differences` | propext, Classical.choice, Quot.sound |
| `Verif.Props.C69_amplitudes` | propext, Classical.choice, Quot.sound |
| `Verif.Props.C69_reference` | propext, Classical.choice, Quot.sound |
| `Verif.Props.C70_setup` | propext, Classical.choice, Quot.sound |
| `Verif.Props.C70_run` | propext, Classical.choice, Quot.sound |
| `Verif.Props.C70_env` | propext, Classical.choice, Quot.sound |
| `Verif.Props.C70_neon` | propext, Quot.sound |
| `Verif.Props.C70_forward` | propext, Classical.choice, Quot.sound |
| `Verif.Props.C70_same` | propext, Classical.choice, Quot.sound |
| `Verif.Props.C70_roundtrip` | propext, Classical.choice, Quot.sound |
| `Verif.Props.C70_backward` | propext, Classical.choice, Quot.sound |
| `Verif.Props.C70_program` | propext, Classical.choice, Quot.sound |
| `Verif.Props.C70_constants` | propext, Classical.choice, Quot.sound |
| `Verif.Props.C71_forward` | propext, Classical.choice, Quot.sound |
| `Verif.Props.C71_backward` | propext, Classical.choice, Quot.sound |
| `Verif.Props.C71_builds` | propext, Classical.choice, Quot.sound |
| `Verif.Props.C72_log_amplitudes` | propext, Classical.choice, Quot.sound |
| `Verif.Props.C72_differences` | propext, Classical.choice, Quot.sound |
| `Verif.Props.C72_gain` | propext, Classical.choice, Quot.sound |
| `Verif.Props.C72_fundamental` | propext, Classical.choice, Quot.sound |
| `Verif.Props.C72_voicing` | propext, Classical.choice, Quot.sound |
| `Verif.Props.C72_amplitudes` | propext, Classical.choice, Quot.sound |
| `Verif.Props.C72_reference` | propext, Classical.choice, Quot.sound |
| `Verif.Props.C73_imbe` | propext, Classical.choice, Quot.sound |
| `Verif.Props.C73_ambe` | propext, Classical.choice, Quot.sound |
| `Verif.Props.C73_imbe_frames` | propext, Classical.choice, Quot.sound |
| `Verif.Props.C73_ambe_frames` | propext, Classical.choice, Quot.sound |
| `Verif.Props.C74_imbe` | propext, Classical.choice, Quot.sound |
| `Verif.Props.C74_2450` | propext, Classical.choice, Quot.sound |
| `Verif.Props.C74_2400` | propext, Classical.choice, Quot.sound |
| `Verif.Props.C74_2400_gain` | propext, Classical.choice, Quot.sound |
| `Verif.Props.C75_frame` | propext, Classical.choice, Quot.sound |
| `Verif.Props.C75_phase` | propext, Classical.choice, Quot.sound |
| `Verif.Props.C75_run` | propext, Classical.choice, Quot.sound |
| `Verif.Props.C75_speech` | propext, Classical.choice, Quot.sound |
| `Verif.Props.C75_history` | propext, Classical.choice, Quot.sound |
| `Verif.Props.C75_imbe` | propext, Classical.choice, Quot.sound |
| `Verif.Props.C75_ambe` | propext, Classical.choice, Quot.sound |
| `Verif.Props.C76_block` | propext, Classical.choice, Quot.sound |
| `Verif.Props.C76_frame` | propext, Classical.choice, Quot.sound |
| `Verif.Props.C76_level` | propext, Classical.choice, Quot.sound |
| `Verif.Props.C76_stored` | propext, Classical.choice, Quot.sound |
| `Verif.Props.C76_history` | propext, Classical.choice, Quot.sound |
| `Verif.Props.C76_imbe` | propext, Classical.choice, Quot.sound |
| `Verif.Props.C76_ambe` | propext, Classical.choice, Quot.sound |
| `Verif.Props.C77_amp` | propext, Classical.choice, Quot.sound |
| `Verif.Props.C77_energy` | propext, Classical.choice, Quot.sound |
| `Verif.Props.C77_decoded` | propext, Classical.choice, Quot.sound |
| `Verif.Props.C77_scale` | propext, Classical.choice, Quot.sound |
| `Verif.Props.C77_loud` | propext, Classical.choice, Quot.sound |
| `Verif.Props.C77_witness` | propext, Classical.choice, Quot.sound |
| `Verif.Props.C78_scale` | propext, Classical.choice, Quot.sound |
| `Verif.Props.C78_limit` | propext, Classical.choice, Quot.sound |
| `Verif.Props.C78_energy` | propext, Classical.choice, Quot.sound |
| `Verif.Props.C78_voicing` | propext, Classical.choice, Quot.sound |
| `Verif.Props.C78_track` | propext, Classical.choice, Quot.sound |
| `Verif.Props.C78_hypothesis_satisfiable` | propext, Classical.choice, Quot.sound |
| `Verif.Props.C79_exact` | propext, Classical.choice, Quot.sound |
| `Verif.Props.C79_played` | propext, Classical.choice, Quot.sound |
| `Verif.Props.C79_stable` | propext, Classical.choice, Quot.sound |
| `Verif.Props.C79_imbe` | propext, Classical.choice, Quot.sound |
| `Verif.Props.C80_frame` | propext, Classical.choice, Quot.sound |
| `Verif.Props.C80_state` | propext, Classical.choice, Quot.sound |
| `Verif.Props.C80_builds` | propext, Classical.choice, Quot.sound |
| `Verif.Props.C80_phase` | propext, Classical.choice, Quot.sound |
| `Verif.Props.C80_run` | propext, Classical.choice, Quot.sound |
| `Verif.Props.C80_block` | propext, Classical.choice, Quot.sound |
| `Verif.Props.C80_stored` | propext, Classical.choice, Quot.sound |
| `Verif.Props.C80_power` | propext, Classical.choice, Quot.sound |
| `Verif.Props.C81_amp` | propext, Classical.choice, Quot.sound |
| `Verif.Props.C81_energy` | propext, Classical.choice, Quot.sound |
| `Verif.Props.C81_loud` | propext, Classical.choice, Quot.sound |
| `Verif.Props.C81_builds` | propext, Classical.choice, Quot.sound |
| `Verif.Props.C81_played` | propext, Classical.choice, Quot.sound |
| `Verif.Props.C82_step` | propext, Classical.choice, Quot.sound |
| `Verif.Props.C82_history` | propext, Classical.choice, Quot.sound |
| `Verif.Props.C82_decoded` | propext |
| `Verif.Props.C82_imbe_samples` | propext, Classical.choice, Quot.sound |
| `Verif.Props.C82_ambe2450_samples` | propext, Classical.choice, Quot.sound |
| `Verif.Props.C82_ambe2400_samples` | propext, Classical.choice, Quot.sound |
| `Verif.Props.C82_program` | propext, Classical.choice, Quot.sound |
| `Verif.Props.C82_imbe_track` | propext, Classical.choice, Quot.sound |
| `Verif.Props.C82_ambe_track` | propext, Classical.choice, Quot.sound |
| `Verif.Props.C82_imbe_played` | propext, Classical.choice, Quot.sound |
| `Verif.Props.C83_stable` | propext, Classical.choice, Quot.sound |
| `Verif.Props.C83_ambe` | propext, Classical.choice, Quot.sound |
| `Verif.Props.C83_ambe_vector` | propext, Classical.choice, Quot.sound |
| `Verif.Props.C84_history` | propext, Classical.choice, Quot.sound |
| `Verif.Props.C84_both` | propext, Classical.choice, Quot.sound |
| `Verif.Props.C84_imbe` | propext, Classical.choice, Quot.sound |
| `Verif.Props.C84_ambe` | propext, Classical.choice, Quot.sound |
| `Verif.Props.C84_stored` | propext, Classical.choice, Quot.sound |
| `Verif.Props.C84_erasure_latent_nan` | propext, Classical.choice, Quot.sound |

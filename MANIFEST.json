{
 "claims": [
  {
   "property": "C01",
   "status": "proved",
   "theorems": [
    "Verif.Props.C01_golay_systematic",
    "Verif.Props.C01_golay2312_corrects_three",
    "Verif.Props.C01_checkGolayBlock_corrects_three"
   ],
   "note": "Complete: every codeword and every pattern of at most three flips."
  },
  {
   "property": "C02",
   "status": "proved",
   "theorems": [
    "Verif.Props.C02_golay_perfect",
    "Verif.Props.C02_golay2312_nearest"
   ],
   "note": "Complete: perfect code and nearest-codeword decoding on every 0/1 input."
  },
  {
   "property": "C03",
   "status": "proved",
   "theorems": [
    "Verif.Props.C03_hamming1511_nearest",
    "Verif.Props.C03_hamming1511_7100_nearest"
   ],
   "note": "Complete for both Hamming variants."
  },
  {
   "property": "C04",
   "status": "proved",
   "theorems": [
    "Verif.Props.C04_only_low_bits"
   ],
   "note": "Complete."
  },
  {
   "property": "C05",
   "status": "partial",
   "theorems": [
    "Verif.Props.C05_checkGolayBlock_exact",
    "Verif.Props.C05_checkGolayBlock_partial",
    "Verif.Props.C05_upper_bits_not_ignored"
   ],
   "note": "The documented claim 'upper bits ignored' is false (C05_upper_bits_not_ignored). C05_checkGolayBlock_exact gives the exact result for every block, C05_checkGolayBlock_partial the claim for 23-bit blocks."
  },
  {
   "property": "C06",
   "status": "proved",
   "theorems": [
    "Verif.Props.C06_ambeC0_corrects_three"
   ],
   "note": "Complete, with the exact return value."
  },
  {
   "property": "C07",
   "status": "proved",
   "theorems": [
    "Verif.Props.C07_imbe7200_round_trip",
    "Verif.Props.C07_imbe7200_frame_exists"
   ],
   "note": "Round trip for every payload and admissible error pattern; C07_imbe7200_frame_exists shows that each of them has a frame."
  },
  {
   "property": "C08",
   "status": "proved",
   "theorems": [
    "Verif.Props.C08_imbe7100_round_trip",
    "Verif.Props.C08_imbe7100_frame_exists"
   ],
   "note": "As C07, in 7100x4400 order."
  },
  {
   "property": "C09",
   "status": "proved",
   "theorems": [
    "Verif.Props.C09_ambe_round_trip",
    "Verif.Props.C09_ambe_frame_exists",
    "Verif.Props.C09_check_bit_counted"
   ],
   "note": "As C07 with the exact error total; C09_check_bit_counted shows the one case in which the total is not the number of flipped data bits."
  },
  {
   "property": "C10",
   "status": "proved",
   "theorems": [
    "Verif.Props.C10_demod7200_involution",
    "Verif.Props.C10_demod7100_involution",
    "Verif.Props.C10_demodAmbe_involution"
   ],
   "note": "For all frame contents, not only 0/1."
  },
  {
   "property": "C11",
   "status": "proved",
   "theorems": [
    "Verif.Props.C11_pn_no_overflow",
    "Verif.Props.C11_demod_keeps_bits"
   ],
   "note": "Complete."
  },
  {
   "property": "C12",
   "status": "proved",
   "theorems": [
    "Verif.Props.C12_convert_moves_bits",
    "Verif.Props.C12_convert_permutation",
    "Verif.Props.C12_convert_fundamental"
   ],
   "note": "Every payload under IEEE arithmetic with any libm; closed form of the permutation in Spec.convSrc."
  },
  {
   "property": "C13",
   "status": "proved",
   "theorems": [
    "Verif.Props.C13_imbe7200_counts",
    "Verif.Props.C13_imbe7100_counts",
    "Verif.Props.C13_ambe_counts"
   ],
   "note": "For every frame of 0/1 chars."
  },
  {
   "property": "C14",
   "status": "proved",
   "theorems": [
    "Verif.Props.C14_invalid_fundamental",
    "Verif.Props.C14_valid_fundamental"
   ],
   "note": "Complete under IEEE arithmetic; the invalid-fundamental half holds in every arithmetic."
  },
  {
   "property": "C15",
   "status": "proved",
   "theorems": [
    "Verif.Props.C15_allocation_bijective",
    "Verif.Props.C15_distribution",
    "Verif.Props.C15_voicing"
   ],
   "note": "Table bijection for every L, execution of the distribution loop, and the voicing decisions read through it."
  },
  {
   "property": "C16",
   "status": "proved",
   "theorems": [
    "Verif.Props.C16_decode_safe",
    "Verif.Props.C16_decode_exception"
   ],
   "note": "C16_decode_exception is an exact characterisation of the undefined read of log2Ml[57]; C16_decode_safe shows it is the only one."
  },
  {
   "property": "C17",
   "status": "proved",
   "theorems": [
    "Verif.Props.C17_decode_safe",
    "Verif.Props.C17_decode_exception"
   ],
   "note": "Exact characterisation of the log2Ml[57] read; everything else safe. Any libm."
  },
  {
   "property": "C18",
   "status": "proved",
   "theorems": [
    "Verif.Props.C18_hypothesis_satisfiable",
    "Verif.Props.C18_decode_safe",
    "Verif.Props.C18_decode_exception"
   ],
   "note": "As C17, for every exp2f within 1e-3 (hypothesis shown satisfiable)."
  },
  {
   "property": "C19",
   "status": "proved",
   "theorems": [
    "Verif.Props.C19_classification",
    "Verif.Props.C19_tone_iff",
    "Verif.Props.C19_speech_parameters"
   ],
   "note": "Classification in every arithmetic; L and voicing decisions under IEEE arithmetic."
  },
  {
   "property": "C20",
   "status": "proved",
   "theorems": [
    "Verif.Props.C20_classification",
    "Verif.Props.C20_every_tone_index",
    "Verif.Props.C20_speech_parameters"
   ],
   "note": "Classification in every arithmetic, every tone index shown to occur."
  },
  {
   "property": "C21",
   "status": "proved",
   "theorems": [
    "Verif.Props.C21_repeat_rule",
    "Verif.Props.C21_repeat_counter"
   ],
   "note": "One-step rule from any state, and the counter over every history (number of repeats modulo 5, because the fifth substitutes the default model)."
  },
  {
   "property": "C22",
   "status": "partial",
   "theorems": [
    "Verif.Props.C22_muting_exact",
    "Verif.Props.C22_muting_partial",
    "Verif.Props.C22_fifth_repeat_not_muted"
   ],
   "note": "The property as worded is false: the fifth repeat in a row is not muted (C22_fifth_repeat_not_muted). C22_muting_exact characterises muting over every history; C22_muting_partial is the claim as worded for streaks of at most four."
  },
  {
   "property": "C23",
   "status": "proved",
   "theorems": [
    "Verif.Props.C23_counter_bound",
    "Verif.Props.C23_muting_exact",
    "Verif.Props.C23_fourth_consecutive",
    "Verif.Props.C23_tone_does_not_interrupt"
   ],
   "note": "Every history of both AMBE codecs. 'Consecutive' is to be read modulo tones, which do not interrupt a streak (C23_tone_does_not_interrupt)."
  },
  {
   "property": "C24",
   "status": "partial",
   "theorems": [
    "Verif.Props.C24_imbe_reuse_partial",
    "Verif.Props.C24_imbe_default_model",
    "Verif.Props.C24_ambe_reuse"
   ],
   "note": "AMBE complete over every history. IMBE: the fifth repeat in a row is marked R, is not muted and uses the default model instead (C24_imbe_default_model), so the claim holds for counters up to 3 (C24_imbe_reuse_partial)."
  },
  {
   "property": "C25",
   "status": "proved",
   "theorems": [
    "Verif.Props.C25_imbe_format",
    "Verif.Props.C25_ambe2450_format",
    "Verif.Props.C25_ambe2400_format",
    "Verif.Props.C25_status_size"
   ],
   "note": "Exact contents of the status string for each codec, from any state, and the capacity it needs."
  },
  {
   "property": "C26",
   "status": "proved",
   "theorems": [
    "Verif.Props.C26_imbe7200_pipeline",
    "Verif.Props.C26_imbe7100_pipeline",
    "Verif.Props.C26_ambe_pipeline",
    "Verif.Props.C26_imbe7200_end_to_end",
    "Verif.Props.C26_imbe7100_end_to_end",
    "Verif.Props.C26_ambe_end_to_end",
    "Verif.Props.C26_inert_arguments",
    "Verif.Props.C26_ambe2400_errs_inert"
   ],
   "note": "Frame entry points equal data entry points on the corrected payload and counts; end-to-end for every frame within the correction radius."
  },
  {
   "property": "C27",
   "status": "proved",
   "theorems": [
    "Verif.Props.C27_elementwise",
    "Verif.Props.C27_short_data",
    "Verif.Props.C27_short_frame",
    "Verif.Props.C27_synthesis"
   ],
   "note": "Every 16-bit entry point is the element-wise conversion of its float twin."
  },
  {
   "property": "C28",
   "status": "proved",
   "theorems": [
    "Verif.Props.C28_value",
    "Verif.Props.C28_infinite",
    "Verif.Props.C28_monotone",
    "Verif.Props.C28_odd",
    "Verif.Props.C28_sse2",
    "Verif.Props.C28_nan",
    "Verif.Props.C28_buffers"
   ],
   "note": "Every binary32 value, in the model of the scalar loop and of one SSE2 lane."
  },
  {
   "property": "C29",
   "status": "proved",
   "theorems": [
    "Verif.Props.C29_bound",
    "Verif.Props.C29_short_defined",
    "Verif.Props.C29_clip_nan",
    "Verif.Props.C29_clip_value",
    "Verif.Props.C29_nan_source"
   ],
   "note": "C29_bound and C29_short_defined for every state, libm and FFT; C29_nan_source: a NaN sample needs a NaN component or two infinite components of opposite sign (the claim's wording omits the last case; it is included as an explicit disjunct)."
  },
  {
   "property": "C30",
   "status": "proved",
   "theorems": [
    "Verif.Props.C30_stream",
    "Verif.Props.C30_unseeded",
    "Verif.Props.C30_draws",
    "Verif.Props.C30_bound"
   ],
   "note": "Unbounded stream, every seed; binary32 arithmetic evaluated exactly."
  },
  {
   "property": "C31",
   "status": "proved",
   "theorems": [
    "Verif.Props.C31_step",
    "Verif.Props.C31_windows",
    "Verif.Props.C31_plain",
    "Verif.Props.C31_seed"
   ],
   "note": "Every number of calls; exact integer values in binary32."
  },
  {
   "property": "C32",
   "status": "proved",
   "theorems": [
    "Verif.Props.C32_excitation_unique",
    "Verif.Props.C32_imbe_replay",
    "Verif.Props.C32_ambe_replay"
   ],
   "note": "Excited says which 256 noise values a synthesised frame used; C32_excitation_unique shows they are determined by the frame."
  },
  {
   "property": "C33",
   "status": "proved",
   "theorems": [
    "Verif.Props.C33_table",
    "Verif.Props.C33_phase",
    "Verif.Props.C33_silence",
    "Verif.Props.C33_dstar"
   ],
   "note": "AMBE 2450 and D-STAR tones, unbounded sequences of frames; the waveform as a function of phase goes through libm sinf, which is a parameter."
  },
  {
   "property": "C34",
   "status": "partial",
   "theorems": [
    "Verif.Props.C34_tone_becomes_noise",
    "Verif.Props.C34_tones_indistinguishable",
    "Verif.Props.C34_witness"
   ],
   "note": "The documented behaviour fails: C34_tone_becomes_noise proves what happens instead for every tone frame, C34_tones_indistinguishable is the negation."
  },
  {
   "property": "C35",
   "status": "proved",
   "theorems": [
    "Verif.Props.C35_imbe",
    "Verif.Props.C35_ambe"
   ],
   "note": "All fields explicit; independence of prior contents for both initialisers."
  },
  {
   "property": "C36",
   "status": "proved",
   "theorems": [
    "Verif.Props.C36_invariant",
    "Verif.Props.C36_imbe_threshold",
    "Verif.Props.C36_ambe_threshold"
   ],
   "note": "Mixed histories of all codecs; thresholds per codec family. Hypothesis Exp2Acc (exp2f within 1e-3) only where AMBE amplitudes are converted."
  },
  {
   "property": "C37",
   "status": "proved",
   "theorems": [
    "Verif.Props.C37_alone",
    "Verif.Props.C37_defined",
    "Verif.Props.C37_schedules",
    "Verif.Props.C37_program",
    "Verif.Props.C37_calls",
    "Verif.Props.C37_seed"
   ],
   "note": "All 32 public functions that touch parameter sets or thread-local variables, any number of threads, any interleaving of calls; calls are atomic (stated in Model/Threads.lean). C37_defined: a schedule is undefined only if some thread alone is."
  },
  {
   "property": "C38",
   "status": "proved",
   "theorems": [
    "Verif.Props.C38_switch",
    "Verif.Props.C38_after_imbe",
    "Verif.Props.C38_same_family"
   ],
   "note": "Equality of the whole call, errors included, from any state whose threshold differs from the AMBE one by more than 1e-6."
  },
  {
   "property": "C39",
   "status": "proved",
   "theorems": [
    "Verif.Props.C39_safe",
    "Verif.Props.C39_spectrum",
    "Verif.Props.C39_only_unvoiced",
    "Verif.Props.C39_defined",
    "Verif.Props.C39_partition",
    "Verif.Props.C39_energy"
   ],
   "note": "FFT transforms are arbitrary functions on 256 samples (pffft itself is not modelled). C39_safe/C39_spectrum/C39_only_unvoiced hold for every arithmetic; C39_partition and C39_defined are for binary32, C39_energy is in exact arithmetic."
  },
  {
   "property": "C40",
   "status": "proved",
   "theorems": [
    "Verif.Props.C40_fast",
    "Verif.Props.C40_samples",
    "Verif.Props.C40_standalone",
    "Verif.Props.C40_reconstruct"
   ],
   "note": "Equality and bounds for every arithmetic; positivity of the denominators in binary32 (kernel evaluation over all 160 samples); reconstruction over the reals."
  },
  {
   "property": "C41",
   "status": "proved",
   "theorems": [
    "Verif.Props.C41_frame",
    "Verif.Props.C41_clean",
    "Verif.Props.C41_clean_finite",
    "Verif.Props.C41_infinite_forced",
    "Verif.Props.C41_energy",
    "Verif.Props.C41_handoff",
    "Verif.Props.C41_energy_real",
    "Verif.Props.C41_bound",
    "Verif.Props.C41_required",
    "Verif.Props.C41_required_float",
    "Verif.Props.C41_required_differs"
   ],
   "note": "C41_frame/C41_clean for every arithmetic (no UB beyond the threshold overflow of C42); clean-frame voicing needs amplitudes not above FLT_MAX, met by every non-infinite binary32 value (C41_clean_finite), and an infinite amplitude is forced voiced (C41_infinite_forced). Energy floor for IEEE with non-NaN inputs and unconditionally in exact arithmetic; amplitude bound in exact arithmetic."
  },
  {
   "property": "C42",
   "status": "partial",
   "theorems": [
    "Verif.Props.C42_bound_partial",
    "Verif.Props.C42_overflow"
   ],
   "note": "The property as worded is false: C42_overflow exhibits 377149 calls ending in signed overflow, for every libm. C42_bound_partial gives absence of overflow and a bound for histories of up to 357000 calls."
  },
  {
   "property": "C43",
   "status": "proved",
   "theorems": [
    "Verif.Props.C43_nonzero",
    "Verif.Props.C43_defined",
    "Verif.Props.C43_exact",
    "Verif.Props.C43_energy",
    "Verif.Props.C43_zero"
   ],
   "note": "Exact arithmetic, with the closed form of the whole function (C43_exact). Hypotheses 0 < w0 and a present harmonic with sin(l w0) != 0 exclude the division by zero of the weight; C43_nonzero derives the latter from L w0 < pi for any spectrum that is not zero."
  },
  {
   "property": "C44",
   "status": "proved",
   "theorems": [
    "Verif.Props.C44_mean_2450",
    "Verif.Props.C44_mean_2400",
    "Verif.Props.C44_shape_invariant_2450",
    "Verif.Props.C44_shape_invariant_2400"
   ],
   "note": "Exact (real) arithmetic, prediction reading lax at index 57 for totality (C17/C18 describe the strict read). Both AMBE decoders; also invariance of the mean under changes of shape bits and previous spectrum."
  },
  {
   "property": "C45",
   "status": "proved",
   "theorems": [
    "Verif.Props.C45_contract_imbe",
    "Verif.Props.C45_contract_2450",
    "Verif.Props.C45_contract_2400",
    "Verif.Props.C45_imbe",
    "Verif.Props.C45_ambe",
    "Verif.Props.C45_any",
    "Verif.Props.C45_runs"
   ],
   "note": "Exact arithmetic. One prediction step contracts (C45_contract_*). Over every history of calls the log spectrum stays in explicit bounds: 211 (IMBE only), 264 (after an AMBE frame), 740 (any mixture). C45_runs: every such history of up to 357000 calls does return, so the bounds are not vacuous."
  },
  {
   "property": "C46",
   "status": "proved",
   "theorems": [
    "Verif.Props.C46_frame",
    "Verif.Props.C46_continuous",
    "Verif.Props.C46_phase",
    "Verif.Props.C46_speech",
    "Verif.Props.C46_track_exact",
    "Verif.Props.C46_low",
    "Verif.Props.C46_window",
    "Verif.Props.C46_steady"
   ],
   "note": "Exact arithmetic. C46_frame gives the whole voiced part of a frame (interpolating and windowed oscillators, any L up to 56 in both sets). C75 is the binary32 counterpart."
  },
  {
   "property": "C47",
   "status": "proved",
   "theorems": [
    "Verif.Props.C47_memory_safe",
    "Verif.Props.C47_defined"
   ],
   "note": "C47_memory_safe holds in every arithmetic with arbitrary float contents; C47_defined removes the remaining two kinds of undefined operation under explicit bounds."
  },
  {
   "property": "C48",
   "status": "proved",
   "theorems": [
    "Verif.Props.C48_reachable",
    "Verif.Props.C48_invisible",
    "Verif.Props.C48_programs",
    "Verif.Props.C48_parts"
   ],
   "note": "The caches are the three thread-local cosine tables and the FFT plan. C48_programs covers every finite sequence of API calls. There is no separate enhancement cache in the code: the RM0 value handed from enhancement to smoothing is visible state and is not dropped."
  },
  {
   "property": "C49",
   "status": "proved",
   "theorems": [
    "Verif.Props.C49_bijective",
    "Verif.Props.C49_never_zero",
    "Verif.Props.C49_periodic"
   ],
   "note": "All nonzero 32-bit states."
  },
  {
   "property": "C50",
   "status": "proved",
   "theorems": [
    "Verif.Props.C50_copy",
    "Verif.Props.C50_null",
    "Verif.Props.C50_size"
   ],
   "note": "snprintf modelled after C17 7.21.6.5; the version string is arbitrary."
  },
  {
   "property": "C51",
   "status": "proved",
   "theorems": [
    "Verif.Props.C51_program_defined"
   ],
   "note": "Every list of documented calls; the log2Ml[57] read of C16-C18 is the only exception, and none if that read is harmless (lax)."
  },
  {
   "property": "C52",
   "status": "proved",
   "theorems": [
    "Verif.Props.C52_reserved_bits"
   ],
   "note": "In every arithmetic, from any state."
  },
  {
   "property": "C53",
   "status": "proved",
   "theorems": [
    "Verif.Props.C53_imbe",
    "Verif.Props.C53_2450",
    "Verif.Props.C53_2400",
    "Verif.Props.C53_unique_imbe",
    "Verif.Props.C53_unique_ambe"
   ],
   "note": "Exact (real) arithmetic; cosine caches as filled by the code. AMBE theorems need at least one harmonic in the previous frame (initial state has 30)."
  },
  {
   "property": "C54",
   "status": "proved",
   "theorems": [
    "Verif.Props.C54_imbe",
    "Verif.Props.C54_ambe",
    "Verif.Props.C54_stale_element"
   ],
   "note": "Exact arithmetic. AMBE histories before may mix all codecs; IMBE histories before are IMBE only, because element 0 is never renewed (C54_stale_element)."
  },
  {
   "property": "C55",
   "status": "proved",
   "theorems": [
    "Verif.Props.C55_program",
    "Verif.Props.C55_enhance",
    "Verif.Props.C55_synth",
    "Verif.Props.C55_scale_bitwise",
    "Verif.Props.C55_normalize_bitwise",
    "Verif.Props.C55_overlap_bitwise",
    "Verif.Props.C55_neon_short",
    "Verif.Props.C55_neon_nan",
    "Verif.Props.C55_dispatch",
    "Verif.Props.C55_sum_not_bitwise",
    "Verif.Props.C55_voiced_not_bitwise"
   ],
   "note": "Programs: exact arithmetic. Kernels marked bitwise: IEEE. vmlaq_f32 is modelled unfused; the reciprocal-estimate division of 32-bit ARM is not modelled. C55_sum_not_bitwise and C55_voiced_not_bitwise are the recorded exceptions."
  },
  {
   "property": "C56",
   "status": "proved",
   "theorems": [
    "Verif.Props.C56_memory_safe",
    "Verif.Props.C56_program_defined",
    "Verif.Props.C56_bound"
   ],
   "note": "Same hypothesis on exp2 as C51 for AMBE 3600x2400."
  },
  {
   "property": "C57",
   "status": "proved",
   "theorems": [
    "Verif.Props.C57_defined",
    "Verif.Props.C57_data",
    "Verif.Props.C57_ambe_data",
    "Verif.Props.C57_decimal",
    "Verif.Props.C57_frame",
    "Verif.Props.C57_data_injective",
    "Verif.Props.C57_frame_injective"
   ],
   "note": "Integer model; text as a list of characters."
  },
  {
   "property": "C58",
   "status": "partial",
   "theorems": [
    "Verif.Props.C58_alloc_partial",
    "Verif.Props.C58_setup_unchecked",
    "Verif.Props.C58_complete",
    "Verif.Props.C58_free",
    "Verif.Props.C58_frames"
   ],
   "note": "False in the code for the two unchecked requests of pffft_new_setup (C58_setup_unchecked is the negation). C58_alloc_partial covers every other pattern; C58_frames needs no hypothesis. The plan of a thread is never released when the thread ends. Block contents are not modelled here."
  },
  {
   "property": "C59",
   "status": "proved",
   "theorems": [
    "Verif.Props.C59_ambe_rate",
    "Verif.Props.C59_ambe_counts",
    "Verif.Props.C59_imbe_eleven",
    "Verif.Props.C59_imbe_recovers",
    "Verif.Props.C59_imbe_twelve_mutes",
    "Verif.Props.C59_imbe_four_not_enough"
   ],
   "note": "AMBE filter over histories, IMBE bounds under IEEE rounding, both limits shown exact by runs"
  },
  {
   "property": "C60",
   "status": "proved",
   "theorems": [
    "Verif.Props.C60_no_stale_handoff",
    "Verif.Props.C60_energy",
    "Verif.Props.C60_energy_imbe",
    "Verif.Props.C60_replay",
    "Verif.Props.C60_energy_real",
    "Verif.Props.C60_voicing_real"
   ],
   "note": "hand-off for every arithmetic, formulas over the reals"
  },
  {
   "property": "C61",
   "status": "proved",
   "theorems": [
    "Verif.Props.C61_setup",
    "Verif.Props.C61_run",
    "Verif.Props.C61_env"
   ],
   "note": "scalar pffft, N=256, three distinct blocks as at the call sites; pointer formation before the block start in radb4 noted in DESIGN.md"
  },
  {
   "property": "C62",
   "status": "proved",
   "theorems": [
    "Verif.Props.C62_forward",
    "Verif.Props.C62_bins",
    "Verif.Props.C62_real",
    "Verif.Props.C62_parseval",
    "Verif.Props.C62_constants"
   ],
   "note": "exact arithmetic"
  },
  {
   "property": "C63",
   "status": "proved",
   "theorems": [
    "Verif.Props.C63_backward",
    "Verif.Props.C63_roundtrip",
    "Verif.Props.C63_bijective"
   ],
   "note": "exact arithmetic"
  },
  {
   "property": "C64",
   "status": "proved",
   "theorems": [
    "Verif.Props.C64_spectrum",
    "Verif.Props.C64_energy"
   ],
   "note": "exact arithmetic; hypothesis Runs E is satisfiable and determines the transforms (C61_env)"
  },
  {
   "property": "C65",
   "status": "partial",
   "theorems": [
    "Verif.Props.C65_finite_ambe_partial",
    "Verif.Props.C65_finite_partial",
    "Verif.Props.C65_transform_bound",
    "Verif.Props.C65_erasure_parms",
    "Verif.Props.C65_erasure_latent_nan",
    "Verif.Props.C65_finite_hypothesis_satisfiable",
    "Verif.Props.C65_nan_samples",
    "Verif.Props.C65_short_undefined",
    "Verif.Props.C65_short_sse2",
    "Verif.Props.C65_witness",
    "Verif.Props.C65_ambe_nan_samples",
    "Verif.Props.C65_ambe_witness",
    "Verif.Props.C65_hypothesis_satisfiable",
    "Verif.Props.C65_finite_imbe_partial"
   ],
   "note": "The claim as worded is false: C65_witness (IMBE 7200x4400, eighth reception) and C65_ambe_witness (AMBE 3600x2450, eleventh reception) exhibit the frames, for every libm of the stated accuracy and every FFT; C65_nan_samples and C65_ambe_nan_samples extend them to every earlier history. C65_finite_partial is the positive half: all samples of a program are finite while the decoded amplitudes stay in a stated range; C65_finite_imbe_partial and C65_finite_ambe_partial state the condition in exact arithmetic, on the received frames alone. Missing: the exact set of histories with finite samples (the bound 2^27 is not sharp)."
  },
  {
   "property": "C66",
   "status": "proved",
   "theorems": [
    "Verif.Props.C66_history",
    "Verif.Props.C66_valid",
    "Verif.Props.C66_waveform",
    "Verif.Props.C66_invalid",
    "Verif.Props.C66_hypothesis_satisfiable"
   ],
   "note": "The waveform theorem assumes a sine accurate to 2^-22 on [-8, 8] (SinAcc), shown satisfiable; samples are finite rational values of the binary32 model. Index tables, classification, state and status are unconditional."
  },
  {
   "property": "C67",
   "status": "proved",
   "theorems": [
    "Verif.Props.C67_tones_transparent"
   ],
   "note": "Two-run theorem over histories of both AMBE decoders; states are compared field by field except the tone phases and the fields every call sets first."
  },
  {
   "property": "C68",
   "status": "proved",
   "theorems": [
    "Verif.Props.C68_forward",
    "Verif.Props.C68_forward_ends",
    "Verif.Props.C68_backward",
    "Verif.Props.C68_roundtrip",
    "Verif.Props.C68_hypothesis_satisfiable"
   ],
   "note": "Accuracy hypotheses CosAcc and SinAcc, shown satisfiable. The stated bounds are guaranteed, not sharp: the errors of a good library are far smaller."
  },
  {
   "property": "C69",
   "status": "proved",
   "theorems": [
    "Verif.Props.C69_log_amplitudes",
    "Verif.Props.C69_differences",
    "Verif.Props.C69_amplitudes",
    "Verif.Props.C69_reference"
   ],
   "note": "Assumes LibmAcc (cosf within 2^-16 absolute, exp2f within 2^-16 relative), shown satisfiable by C65_hypothesis_satisfiable. The repeat decisions of the reference are those of the binary32 error rate (C21). The bound 0.051 is guaranteed, not sharp."
  },
  {
   "property": "C70",
   "status": "proved",
   "theorems": [
    "Verif.Props.C70_setup",
    "Verif.Props.C70_run",
    "Verif.Props.C70_env",
    "Verif.Props.C70_neon",
    "Verif.Props.C70_forward",
    "Verif.Props.C70_same",
    "Verif.Props.C70_roundtrip",
    "Verif.Props.C70_backward",
    "Verif.Props.C70_program",
    "Verif.Props.C70_constants"
   ],
   "note": "Model/FftVec.lean: setup, reorderings, finalize and preprocess steps and the transform driver on vectors; the radix-4 passes are the scalar definitions run on lanes. Setup, absence of UB and determinism hold in every arithmetic; the values in exact arithmetic only (C70_same: an environment has the transforms of the vector build iff it has those of the scalar build, so C62-C64 carry over). The literals of M_SQRT1_2 and M_SQRT2 are taken as the irrational numbers, C70_constants shows the binary32 constants are the nearest. vmlaq_f32 is taken as unfused."
  },
  {
   "property": "C71",
   "status": "proved",
   "theorems": [
    "Verif.Props.C71_forward",
    "Verif.Props.C71_backward",
    "Verif.Props.C71_builds"
   ],
   "note": "The step lemmas of C68 per lane plus bounds for the finalize and preprocess steps; the angles of the table e are checked by kernel evaluation of all 96 entries against pi to 20 digits. Hypotheses CosAcc and SinAcc (accuracy of the platform's cosf, sinf); vmlaq_f32 is taken as unfused."
  },
  {
   "property": "C72",
   "status": "proved",
   "theorems": [
    "Verif.Props.C72_log_amplitudes",
    "Verif.Props.C72_differences",
    "Verif.Props.C72_gain",
    "Verif.Props.C72_fundamental",
    "Verif.Props.C72_voicing",
    "Verif.Props.C72_amplitudes",
    "Verif.Props.C72_reference"
   ],
   "note": "Under LibmAcc and Log2Acc (cosf, exp2f, log2f accurate to 2^-16). The reference is the decoder model run in exact arithmetic, frame by frame."
  },
  {
   "property": "C73",
   "status": "proved",
   "theorems": [
    "Verif.Props.C73_imbe",
    "Verif.Props.C73_ambe",
    "Verif.Props.C73_imbe_frames",
    "Verif.Props.C73_ambe_frames"
   ],
   "note": "C73_imbe and C73_ambe compare two receptions by error counts after any common history; C73_imbe_frames and C73_ambe_frames compare received frames with correctable bit errors with error-free frames. The error figures (errorRate, errorCountTotal, errorCount4) of the final states may differ; everything else is equal. Both receptions are assumed to run without undefined behaviour, which C51 establishes for documented programs."
  },
  {
   "property": "C74",
   "status": "proved",
   "theorems": [
    "Verif.Props.C74_imbe",
    "Verif.Props.C74_2450",
    "Verif.Props.C74_2400",
    "Verif.Props.C74_2400_gain"
   ],
   "note": "exact arithmetic; IMBE for all valid payloads, AMBE for voice and silence payloads (tone and erasure frames carry no spectrum)."
  },
  {
   "property": "C75",
   "status": "proved",
   "theorems": [
    "Verif.Props.C75_frame",
    "Verif.Props.C75_phase",
    "Verif.Props.C75_run",
    "Verif.Props.C75_speech",
    "Verif.Props.C75_history",
    "Verif.Props.C75_imbe",
    "Verif.Props.C75_ambe"
   ],
   "note": "binary32, scalar build. The contributions of the harmonics are exact except at the two thresholds named in the statement. C75_frame takes the bounds of OrdinarySet as hypotheses; C75_run shows them and the phase bound for runs of frames, C75_history derives everything for whole programs from the amplitude hypothesis of C65_finite_partial. Assumes sinf/cosf within 2^-20 (TrigAcc)."
  },
  {
   "property": "C76",
   "status": "proved",
   "theorems": [
    "Verif.Props.C76_block",
    "Verif.Props.C76_frame",
    "Verif.Props.C76_level",
    "Verif.Props.C76_stored",
    "Verif.Props.C76_history",
    "Verif.Props.C76_imbe",
    "Verif.Props.C76_ambe"
   ],
   "note": "binary32, scalar build. The description ShapedNoise names the bins, the gains and the errors; it does not mention the code. C76_block takes bounds on the noise and the amplitudes as hypotheses; C76_history, C76_imbe and C76_ambe derive them for whole programs from the amplitude hypotheses of C65. Assumes sinf/cosf within 2^-22 on [-8, 8] (SinAcc, CosAcc); for whole programs also TrigAcc."
  },
  {
   "property": "C77",
   "status": "proved",
   "theorems": [
    "Verif.Props.C77_amp",
    "Verif.Props.C77_energy",
    "Verif.Props.C77_decoded",
    "Verif.Props.C77_scale",
    "Verif.Props.C77_loud",
    "Verif.Props.C77_witness"
   ],
   "note": "binary32, scalar build. C77_amp: each amplitude within 1/20 of the formula of C43 for amplitudes up to 2^18; C77_energy up to 2^27; C77_decoded: the decoders meet the hypotheses on the fundamental; C77_loud and C77_witness: what happens from 2^25 on, and that it is not the exact result. Nothing is said about the single amplitudes between 2^18 and 2^25."
  },
  {
   "property": "C78",
   "status": "proved",
   "theorems": [
    "Verif.Props.C78_scale",
    "Verif.Props.C78_limit",
    "Verif.Props.C78_energy",
    "Verif.Props.C78_voicing",
    "Verif.Props.C78_track",
    "Verif.Props.C78_hypothesis_satisfiable"
   ],
   "note": "binary32. C78_scale and C78_limit: the limitation of the amplitudes; C78_energy: one step of the local energy; C78_track: the local energy over every history of IMBE calls; C78_voicing: the voicing limit, assuming ExpAcc (expf within 2^-20 relative on [0, 4]). The limit is stated for an error rate within 1e-9 of the recorded one because 0.005f and 0.0125f are not 0.005 and 0.0125."
  },
  {
   "property": "C79",
   "status": "proved",
   "theorems": [
    "Verif.Props.C79_exact",
    "Verif.Props.C79_played",
    "Verif.Props.C79_stable",
    "Verif.Props.C79_imbe"
   ],
   "note": "binary32, scalar build. C79_exact: over the reals, the played amplitudes are the enhanced ones limited to the new threshold; C79_played: in binary32 within a ninth of that, for decoded amplitudes up to 2^18; C79_stable: the enhancement of close spectra; C79_imbe: from the received bits, over every history, combining C69, C77 and C78, under LibmAcc, TrigAcc, CosAcc and SinAcc. The factors 59 and 167 percent are bounds, not the observed error: about 3.6 percent per band comes from the tolerance of C69, and the enhancement can amplify it."
  },
  {
   "property": "C80",
   "status": "proved",
   "theorems": [
    "Verif.Props.C80_frame",
    "Verif.Props.C80_state",
    "Verif.Props.C80_builds",
    "Verif.Props.C80_phase",
    "Verif.Props.C80_run",
    "Verif.Props.C80_block",
    "Verif.Props.C80_stored",
    "Verif.Props.C80_power"
   ],
   "note": "binary32, SIMD build (SSE2 and NEON). Covers the synthesis of a frame and of runs of frames (C80_run) from given parameter sets; the enhancement and the decoders before it are not part of it. For the unvoiced blocks of the two builds it is shown that both are shaped noise of the same noise and the same amplitudes; no bound on their difference sample by sample is stated. Assumes TrigAcc, and SinAcc and CosAcc for the unvoiced part."
  },
  {
   "property": "C81",
   "status": "proved",
   "theorems": [
    "Verif.Props.C81_amp",
    "Verif.Props.C81_energy",
    "Verif.Props.C81_loud",
    "Verif.Props.C81_builds",
    "Verif.Props.C81_played"
   ],
   "note": "binary32, both instruction sets; assumes TrigAcc, CosAcc, SinAcc about sinf and cosf. C81_amp, C81_energy, C81_loud and C81_played mirror C77 and C79_played; C81_builds compares the two builds."
  },
  {
   "property": "C82",
   "status": "proved",
   "theorems": [
    "Verif.Props.C82_step",
    "Verif.Props.C82_history",
    "Verif.Props.C82_decoded",
    "Verif.Props.C82_imbe_samples",
    "Verif.Props.C82_ambe2450_samples",
    "Verif.Props.C82_ambe2400_samples",
    "Verif.Props.C82_program",
    "Verif.Props.C82_imbe_track",
    "Verif.Props.C82_ambe_track",
    "Verif.Props.C82_imbe_played"
   ],
   "note": "C82_step, C82_history, C82_decoded and the three C82_*_samples hold for any arithmetic; C82_program assumes Exp2Acc; C82_imbe_track, C82_ambe_track and C82_imbe_played carry C69, C72 and C79 over to the vector build under the same assumptions."
  },
  {
   "property": "C83",
   "status": "proved",
   "theorems": [
    "Verif.Props.C83_stable",
    "Verif.Props.C83_ambe",
    "Verif.Props.C83_ambe_vector"
   ],
   "note": "binary32. C83_stable: the enhancement of spectra as close as C72 makes them; C83_ambe: from the received bits, over every history, combining C72, C77 and C78, under LibmAcc, Log2Acc, TrigAcc, CosAcc and SinAcc; C83_ambe_vector: the vector build, by C81 and C82. Frames other than voice are allowed anywhere but at the end. The factors 54 and 183 percent are bounds, not the observed error. The fundamental that enters the reference is the decoded one (C72_fundamental bounds its error)."
  },
  {
   "property": "C84",
   "status": "proved",
   "theorems": [
    "Verif.Props.C84_history",
    "Verif.Props.C84_both",
    "Verif.Props.C84_imbe",
    "Verif.Props.C84_ambe",
    "Verif.Props.C84_stored",
    "Verif.Props.C84_erasure_latent_nan"
   ],
   "note": "binary32, SSE2 and NEON builds. C84_history: every block of every program, condition on the decoded amplitudes of the vector build; C84_both: the condition on the default build, both builds at once, up to 357000 calls (C82); C84_imbe, C84_ambe: the condition from the exact amplitudes of the received bits. At most 20 errors per call and moderate amplitudes, as in C65: without them the claim is false in the default build already. Under TrigAcc, CosAcc, SinAcc and Exp2Acc (C84_imbe: LibmAcc; C84_ambe: also Log2Acc)."
  }
 ]
}

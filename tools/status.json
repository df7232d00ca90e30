{
 "C01": {
  "note": "Complete: every codeword and every pattern of at most three flips."
 },
 "C02": {
  "note": "Complete: perfect code and nearest-codeword decoding on every 0/1 input."
 },
 "C03": {
  "note": "Complete for both Hamming variants."
 },
 "C04": {
  "note": "Complete."
 },
 "C05": {
  "status": "partial",
  "note": "The documented claim 'upper bits ignored' is false (C05_upper_bits_not_ignored). C05_checkGolayBlock_exact gives the exact result for every block, C05_checkGolayBlock_partial the claim for 23-bit blocks."
 },
 "C06": {
  "note": "Complete, with the exact return value."
 },
 "C07": {
  "note": "Round trip for every payload and admissible error pattern; C07_imbe7200_frame_exists shows that each of them has a frame."
 },
 "C08": {
  "note": "As C07, in 7100x4400 order."
 },
 "C09": {
  "note": "As C07 with the exact error total; C09_check_bit_counted shows the one case in which the total is not the number of flipped data bits."
 },
 "C10": {
  "note": "For all frame contents, not only 0/1."
 },
 "C11": {
  "note": "Complete."
 },
 "C12": {
  "note": "Every payload under IEEE arithmetic with any libm; closed form of the permutation in Spec.convSrc."
 },
 "C13": {
  "note": "For every frame of 0/1 chars."
 },
 "C14": {
  "note": "Complete under IEEE arithmetic; the invalid-fundamental half holds in every arithmetic."
 },
 "C15": {
  "note": "Table bijection for every L, execution of the distribution loop, and the voicing decisions read through it."
 },
 "C16": {
  "note": "C16_decode_exception is an exact characterisation of the undefined read of log2Ml[57]; C16_decode_safe shows it is the only one."
 },
 "C17": {
  "note": "Exact characterisation of the log2Ml[57] read; everything else safe. Any libm."
 },
 "C18": {
  "note": "As C17, for every exp2f within 1e-3 (hypothesis shown satisfiable)."
 },
 "C19": {
  "note": "Classification in every arithmetic; L and voicing decisions under IEEE arithmetic."
 },
 "C20": {
  "note": "Classification in every arithmetic, every tone index shown to occur."
 },
 "C21": {
  "note": "One-step rule from any state, and the counter over every history (number of repeats modulo 5, because the fifth substitutes the default model)."
 },
 "C22": {
  "status": "partial",
  "note": "The property as worded is false: the fifth repeat in a row is not muted (C22_fifth_repeat_not_muted). C22_muting_exact characterises muting over every history; C22_muting_partial is the claim as worded for streaks of at most four."
 },
 "C23": {
  "note": "Every history of both AMBE codecs. 'Consecutive' is to be read modulo tones, which do not interrupt a streak (C23_tone_does_not_interrupt)."
 },
 "C24": {
  "status": "partial",
  "note": "AMBE complete over every history. IMBE: the fifth repeat in a row is marked R, is not muted and uses the default model instead (C24_imbe_default_model), so the claim holds for counters up to 3 (C24_imbe_reuse_partial)."
 },
 "C25": {
  "note": "Exact contents of the status string for each codec, from any state, and the capacity it needs."
 },
 "C26": {
  "note": "Frame entry points equal data entry points on the corrected payload and counts; end-to-end for every frame within the correction radius."
 },
 "C27": {
  "note": "Every 16-bit entry point is the element-wise conversion of its float twin."
 },
 "C28": {
  "note": "Every binary32 value, in the model of the scalar loop and of one SSE2 lane."
 },
 "C29": {
  "status": "proved",
  "note": "C29_bound and C29_short_defined for every state, libm and FFT; C29_nan_source: a NaN sample needs a NaN component or two infinite components of opposite sign (the claim's wording omits the last case; it is included as an explicit disjunct)."
 },
 "C30": {
  "note": "Unbounded stream, every seed; binary32 arithmetic evaluated exactly."
 },
 "C31": {
  "note": "Every number of calls; exact integer values in binary32."
 },
 "C32": {
  "note": "Excited says which 256 noise values a synthesised frame used; C32_excitation_unique shows they are determined by the frame."
 },
 "C33": {
  "note": "AMBE 2450 and D-STAR tones, unbounded sequences of frames; the waveform as a function of phase goes through libm sinf, which is a parameter."
 },
 "C34": {
  "status": "partial",
  "note": "The documented behaviour fails: C34_tone_becomes_noise proves what happens instead for every tone frame, C34_tones_indistinguishable is the negation."
 },
 "C35": {
  "note": "All fields explicit; independence of prior contents for both initialisers."
 },
 "C36": {
  "note": "Mixed histories of all codecs; thresholds per codec family. Hypothesis Exp2Acc (exp2f within 1e-3) only where AMBE amplitudes are converted."
 },
 "C37": {
  "status": "proved",
  "note": "All 32 public functions that touch parameter sets or thread-local variables, any number of threads, any interleaving of calls; calls are atomic (stated in Model/Threads.lean). C37_defined: a schedule is undefined only if some thread alone is."
 },
 "C38": {
  "note": "Equality of the whole call, errors included, from any state whose threshold differs from the AMBE one by more than 1e-6."
 },
 "C39": {
  "status": "proved",
  "note": "FFT transforms are arbitrary functions on 256 samples (pffft itself is not modelled). C39_safe/C39_spectrum/C39_only_unvoiced hold for every arithmetic; C39_partition and C39_defined are for binary32, C39_energy is in exact arithmetic."
 },
 "C40": {
  "status": "proved",
  "note": "Equality and bounds for every arithmetic; positivity of the denominators in binary32 (kernel evaluation over all 160 samples); reconstruction over the reals."
 },
 "C41": {
  "status": "proved",
  "note": "C41_frame/C41_clean for every arithmetic (no UB beyond the threshold overflow of C42); clean-frame voicing needs amplitudes not above FLT_MAX, met by every non-infinite binary32 value (C41_clean_finite), and an infinite amplitude is forced voiced (C41_infinite_forced). Energy floor for IEEE with non-NaN inputs and unconditionally in exact arithmetic; amplitude bound in exact arithmetic."
 },
 "C42": {
  "status": "partial",
  "note": "The property as worded is false: C42_overflow exhibits 377149 calls ending in signed overflow, for every libm. C42_bound_partial gives absence of overflow and a bound for histories of up to 357000 calls."
 },
 "C43": {
  "status": "proved",
  "note": "Exact arithmetic, with the closed form of the whole function (C43_exact). Hypotheses 0 < w0 and a present harmonic with sin(l w0) != 0 exclude the division by zero of the weight; C43_nonzero derives the latter from L w0 < pi for any spectrum that is not zero."
 },
 "C44": {
  "note": "Exact (real) arithmetic, prediction reading lax at index 57 for totality (C17/C18 describe the strict read). Both AMBE decoders; also invariance of the mean under changes of shape bits and previous spectrum."
 },
 "C45": {
  "status": "proved",
  "note": "Exact arithmetic. One prediction step contracts (C45_contract_*). Over every history of calls the log spectrum stays in explicit bounds: 211 (IMBE only), 264 (after an AMBE frame), 740 (any mixture). C45_runs: every such history of up to 357000 calls does return, so the bounds are not vacuous."
 },
 "C46": {
  "status": "proved",
  "note": "Exact arithmetic. C46_frame gives the whole voiced part of a frame (interpolating and windowed oscillators, any L up to 56 in both sets). C75 is the binary32 counterpart."
 },
 "C47": {
  "note": "C47_memory_safe holds in every arithmetic with arbitrary float contents; C47_defined removes the remaining two kinds of undefined operation under explicit bounds."
 },
 "C48": {
  "status": "proved",
  "note": "The caches are the three thread-local cosine tables and the FFT plan. C48_programs covers every finite sequence of API calls. There is no separate enhancement cache in the code: the RM0 value handed from enhancement to smoothing is visible state and is not dropped."
 },
 "C49": {
  "note": "All nonzero 32-bit states."
 },
 "C50": {
  "note": "snprintf modelled after C17 7.21.6.5; the version string is arbitrary."
 },
 "C51": {
  "note": "Every list of documented calls; the log2Ml[57] read of C16-C18 is the only exception, and none if that read is harmless (lax)."
 },
 "C52": {
  "note": "In every arithmetic, from any state."
 },
 "C53": {
  "status": "proved",
  "note": "Exact (real) arithmetic; cosine caches as filled by the code. AMBE theorems need at least one harmonic in the previous frame (initial state has 30)."
 },
 "C54": {
  "status": "proved",
  "note": "Exact arithmetic. AMBE histories before may mix all codecs; IMBE histories before are IMBE only, because element 0 is never renewed (C54_stale_element)."
 },
 "C55": {
  "status": "proved",
  "note": "Programs: exact arithmetic. Kernels marked bitwise: IEEE. vmlaq_f32 is modelled unfused; the reciprocal-estimate division of 32-bit ARM is not modelled. C55_sum_not_bitwise and C55_voiced_not_bitwise are the recorded exceptions."
 },
 "C56": {
  "status": "proved",
  "note": "Same hypothesis on exp2 as C51 for AMBE 3600x2400."
 },
 "C57": {
  "status": "proved",
  "note": "Integer model; text as a list of characters."
 },
 "C58": {
  "status": "partial",
  "note": "False in the code for the two unchecked requests of pffft_new_setup (C58_setup_unchecked is the negation). C58_alloc_partial covers every other pattern; C58_frames needs no hypothesis. The plan of a thread is never released when the thread ends. Block contents are not modelled here."
 },
 "C59": {
  "status": "proved",
  "note": "AMBE filter over histories, IMBE bounds under IEEE rounding, both limits shown exact by runs"
 },
 "C60": {
  "status": "proved",
  "note": "hand-off for every arithmetic, formulas over the reals"
 },
 "C61": {
  "status": "proved",
  "note": "scalar pffft, N=256, three distinct blocks as at the call sites; pointer formation before the block start in radb4 noted in DESIGN.md"
 },
 "C62": {
  "status": "proved",
  "note": "exact arithmetic"
 },
 "C63": {
  "status": "proved",
  "note": "exact arithmetic"
 },
 "C64": {
  "status": "proved",
  "note": "exact arithmetic; hypothesis Runs E is satisfiable and determines the transforms (C61_env)"
 },
 "C65": {
  "status": "partial",
  "note": "The claim as worded is false: C65_witness (IMBE 7200x4400, eighth reception) and C65_ambe_witness (AMBE 3600x2450, eleventh reception) exhibit the frames, for every libm of the stated accuracy and every FFT; C65_nan_samples and C65_ambe_nan_samples extend them to every earlier history. C65_finite_partial is the positive half: all samples of a program are finite while the decoded amplitudes stay in a stated range; C65_finite_imbe_partial and C65_finite_ambe_partial state the condition in exact arithmetic, on the received frames alone. Missing: the exact set of histories with finite samples (the bound 2^27 is not sharp)."
 },
 "C66": {
  "status": "proved",
  "note": "The waveform theorem assumes a sine accurate to 2^-22 on [-8, 8] (SinAcc), shown satisfiable; samples are finite rational values of the binary32 model. Index tables, classification, state and status are unconditional."
 },
 "C67": {
  "status": "proved",
  "note": "Two-run theorem over histories of both AMBE decoders; states are compared field by field except the tone phases and the fields every call sets first."
 },
 "C68": {
  "status": "proved",
  "note": "Accuracy hypotheses CosAcc and SinAcc, shown satisfiable. The stated bounds are guaranteed, not sharp: the errors of a good library are far smaller."
 },
 "C69": {
  "status": "proved",
  "note": "Assumes LibmAcc (cosf within 2^-16 absolute, exp2f within 2^-16 relative), shown satisfiable by C65_hypothesis_satisfiable. The repeat decisions of the reference are those of the binary32 error rate (C21). The bound 0.051 is guaranteed, not sharp."
 },
 "C70": {
  "status": "proved",
  "note": "Model/FftVec.lean: setup, reorderings, finalize and preprocess steps and the transform driver on vectors; the radix-4 passes are the scalar definitions run on lanes. Setup, absence of UB and determinism hold in every arithmetic; the values in exact arithmetic only (C70_same: an environment has the transforms of the vector build iff it has those of the scalar build, so C62-C64 carry over). The literals of M_SQRT1_2 and M_SQRT2 are taken as the irrational numbers, C70_constants shows the binary32 constants are the nearest. vmlaq_f32 is taken as unfused."
 },
 "C71": {
  "status": "proved",
  "note": "The step lemmas of C68 per lane plus bounds for the finalize and preprocess steps; the angles of the table e are checked by kernel evaluation of all 96 entries against pi to 20 digits. Hypotheses CosAcc and SinAcc (accuracy of the platform's cosf, sinf); vmlaq_f32 is taken as unfused."
 },
 "C72": {
  "status": "proved",
  "note": "Under LibmAcc and Log2Acc (cosf, exp2f, log2f accurate to 2^-16). The reference is the decoder model run in exact arithmetic, frame by frame."
 },
 "C73": {
  "status": "proved",
  "note": "C73_imbe and C73_ambe compare two receptions by error counts after any common history; C73_imbe_frames and C73_ambe_frames compare received frames with correctable bit errors with error-free frames. The error figures (errorRate, errorCountTotal, errorCount4) of the final states may differ; everything else is equal. Both receptions are assumed to run without undefined behaviour, which C51 establishes for documented programs."
 },
 "C74": {
  "status": "proved",
  "note": "exact arithmetic; IMBE for all valid payloads, AMBE for voice and silence payloads (tone and erasure frames carry no spectrum)."
 },
 "C75": {
  "status": "proved",
  "note": "binary32, scalar build. The contributions of the harmonics are exact except at the two thresholds named in the statement. C75_frame takes the bounds of OrdinarySet as hypotheses; C75_run shows them and the phase bound for runs of frames, C75_history derives everything for whole programs from the amplitude hypothesis of C65_finite_partial. Assumes sinf/cosf within 2^-20 (TrigAcc)."
 },
 "C76": {
  "status": "proved",
  "note": "binary32, scalar build. The description ShapedNoise names the bins, the gains and the errors; it does not mention the code. C76_block takes bounds on the noise and the amplitudes as hypotheses; C76_history, C76_imbe and C76_ambe derive them for whole programs from the amplitude hypotheses of C65. Assumes sinf/cosf within 2^-22 on [-8, 8] (SinAcc, CosAcc); for whole programs also TrigAcc."
 },
 "C77": {
  "status": "proved",
  "note": "binary32, scalar build. C77_amp: each amplitude within 1/20 of the formula of C43 for amplitudes up to 2^18; C77_energy up to 2^27; C77_decoded: the decoders meet the hypotheses on the fundamental; C77_loud and C77_witness: what happens from 2^25 on, and that it is not the exact result. Nothing is said about the single amplitudes between 2^18 and 2^25."
 },
 "C78": {
  "status": "proved",
  "note": "binary32. C78_scale and C78_limit: the limitation of the amplitudes; C78_energy: one step of the local energy; C78_track: the local energy over every history of IMBE calls; C78_voicing: the voicing limit, assuming ExpAcc (expf within 2^-20 relative on [0, 4]). The limit is stated for an error rate within 1e-9 of the recorded one because 0.005f and 0.0125f are not 0.005 and 0.0125."
 },
 "C79": {
  "status": "proved",
  "note": "binary32, scalar build. C79_exact: over the reals, the played amplitudes are the enhanced ones limited to the new threshold; C79_played: in binary32 within a ninth of that, for decoded amplitudes up to 2^18; C79_stable: the enhancement of close spectra; C79_imbe: from the received bits, over every history, combining C69, C77 and C78, under LibmAcc, TrigAcc, CosAcc and SinAcc. The factors 59 and 167 percent are bounds, not the observed error: about 3.6 percent per band comes from the tolerance of C69, and the enhancement can amplify it."
 },
 "C80": {
  "status": "proved",
  "note": "binary32, SIMD build (SSE2 and NEON). Covers the synthesis of a frame and of runs of frames (C80_run) from given parameter sets; the enhancement and the decoders before it are not part of it. For the unvoiced blocks of the two builds it is shown that both are shaped noise of the same noise and the same amplitudes; no bound on their difference sample by sample is stated. Assumes TrigAcc, and SinAcc and CosAcc for the unvoiced part."
 },
 "C81": {
  "status": "proved",
  "note": "binary32, both instruction sets; assumes TrigAcc, CosAcc, SinAcc about sinf and cosf. C81_amp, C81_energy, C81_loud and C81_played mirror C77 and C79_played; C81_builds compares the two builds."
 },
 "C82": {
  "status": "proved",
  "note": "C82_step, C82_history, C82_decoded and the three C82_*_samples hold for any arithmetic; C82_program assumes Exp2Acc; C82_imbe_track, C82_ambe_track and C82_imbe_played carry C69, C72 and C79 over to the vector build under the same assumptions."
 },
 "C83": {
  "status": "proved",
  "note": "binary32. C83_stable: the enhancement of spectra as close as C72 makes them; C83_ambe: from the received bits, over every history, combining C72, C77 and C78, under LibmAcc, Log2Acc, TrigAcc, CosAcc and SinAcc; C83_ambe_vector: the vector build, by C81 and C82. Frames other than voice are allowed anywhere but at the end. The factors 54 and 183 percent are bounds, not the observed error. The fundamental that enters the reference is the decoded one (C72_fundamental bounds its error)."
 },
 "C84": {
  "status": "proved",
  "note": "binary32, SSE2 and NEON builds. C84_history: every block of every program, condition on the decoded amplitudes of the vector build; C84_both: the condition on the default build, both builds at once, up to 357000 calls (C82); C84_imbe, C84_ambe: the condition from the exact amplitudes of the received bits. At most 20 errors per call and moderate amplitudes, as in C65: without them the claim is false in the default build already. Under TrigAcc, CosAcc, SinAcc and Exp2Acc (C84_imbe: LibmAcc; C84_ambe: also Log2Acc)."
 }
}
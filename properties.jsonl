{"id": "C01", "title": "Golay(23,12) corrects every pattern of up to three errors", "statement": "For every 12-bit message and every set of at most three flipped positions of its 23-bit Golay codeword, mbe_golay2312 returns out[22..11] equal to the message, leaves out[10..0] equal to the received bits, and returns the number of flipped positions among 22..11; mbe_checkGolayBlock on the same packed word leaves exactly the 12-bit message.", "quantifier": "every message (4096) and every error pattern of weight <= 3 over the 23 positions", "why_tests_cant": "8.4 million (message, pattern) pairs driven through a 2048-entry hand-copied table; a single wrong table entry only shows on the patterns with that syndrome.", "anchors": ["src/ecc/ecc.c: mbe_checkGolayBlock, mbe_golay2312", "src/ecc/ecc_const.c: golayGenerator, golayMatrix"]}
{"id": "C02", "title": "Golay decoder is complete and nearest-codeword", "statement": "For every received 23-bit word there is a codeword at Hamming distance at most 3, it is unique, and mbe_golay2312 returns its message; the returned error count is never greater than 3 and never counts a parity-bit error.", "quantifier": "every 23-bit input word (2^23), codeword or not", "why_tests_cant": "Statement compares with all 4096 codewords for all 8M words and asserts uniqueness; a test checks sampled words only.", "anchors": ["src/ecc/ecc.c: mbe_golay2312", "src/ecc/ecc_const.c: golayMatrix"]}
{"id": "C03", "title": "Hamming(15,11) corrects every single error, both variants", "statement": "For both mbe_hamming1511 and mbe_7100x4400hamming1511 and every 15-bit input there is exactly one codeword of that variant within distance 1; the 15 output bits are that codeword and the return value is 0 if the input was the codeword and 1 otherwise.", "quantifier": "every 15-bit input word, both code variants", "why_tests_cant": "The claim is about nearest codewords among all 2048 and about uniqueness, for all inputs and two different code tables.", "anchors": ["src/ecc/ecc.c: mbe_hamming1511, mbe_7100x4400hamming1511, ham1511_lut, ham1511_7100_lut"]}
{"id": "C04", "title": "Bit reads ignore everything but bit 0", "statement": "The ECC decoders depend on each input char only through its lowest bit for the corrected output, so any char encoding of a bit plane with the same low bits yields the same data bits.", "quantifier": "every assignment of arbitrary char values to the input array", "why_tests_cant": "Input chars range over 256^23 values.", "anchors": ["src/ecc/ecc.c: mbe_golay2312, mbe_hamming1511"]}
{"id": "C05", "title": "mbe_checkGolayBlock ignores the upper bits (documented)", "statement": "The header promises that bits above bit 22 of the packed block are ignored and that on return the block is 12-bit data. (As written the code lets bits 23..31 through into the result; the exact behaviour is proved, with the documented one only for blocks below 2^23.)", "quantifier": "every long value of the packed block", "why_tests_cant": "A quantifier over all 64-bit values; the defect is invisible to tests that only pass 23-bit values.", "anchors": ["src/ecc/ecc.c: mbe_checkGolayBlock", "include/mbelib-neo/mbelib.h: mbe_checkGolayBlock"]}
{"id": "C06", "title": "AMBE C0 correction of the extended Golay(24,12) word", "statement": "mbe_eccAmbe3600x2400C0/2450C0 on a frame whose C0 row is a codeword of the extended Golay(24,12) code with at most three flipped bits makes the 12 data bits of C0 correct, changes no other row, and returns the number of data-bit errors; only when no data bit was hit does it return the parity of the number of flipped check bits instead.", "quantifier": "every C0 codeword, every error pattern of weight <= 3 on the 24 positions, every content of the other rows", "why_tests_cant": "Error-pattern times message space, plus a frame condition over all other rows.", "anchors": ["src/ambe/ambe_common.c: mbe_eccAmbe3600x2400C0_common", "src/ambe/ambe3600x2450.c", "src/ambe/ambe3600x2400.c"]}
{"id": "C07", "title": "IMBE 7200x4400 channel round trip", "statement": "For every 88-bit payload, encoding it (4 Golay words, 3 Hamming words, 7 raw bits), scrambling words 1..6 with the PN sequence seeded by the first word and flipping up to three bits in each Golay word and one in each Hamming word, the receive chain C0 ECC -> demodulate -> data ECC returns exactly the payload.", "quantifier": "every payload (2^88) and every admissible error pattern of the 144-bit frame", "why_tests_cant": "Composition of three passes over an astronomically large input space; an off-by-one in any row or in PN alignment escapes sampled tests.", "anchors": ["src/imbe/imbe7200x4400.c: mbe_eccImbe7200x4400C0, mbe_demodulateImbe7200x4400Data, mbe_eccImbe7200x4400Data"]}
{"id": "C08", "title": "IMBE 7100x4400 channel round trip", "statement": "For every 88-bit payload in 7100x4400 order, encode/scramble/flip (up to three bits in each Golay word and one in each Hamming word) then C0 ECC -> demodulate -> data ECC returns exactly the payload.", "quantifier": "every payload and every admissible error pattern", "why_tests_cant": "As for C07, with the shortened C0 word and a different row layout.", "anchors": ["src/imbe/imbe7100x4400.c: mbe_eccImbe7100x4400C0, mbe_demodulateImbe7100x4400Data, mbe_eccImbe7100x4400Data"]}
{"id": "C09", "title": "AMBE 3600x2400/2450 channel round trip", "statement": "For every 49-bit payload, encode (C0 Golay(24,12), C1 Golay(23,12) scrambled by the PN seeded with C0 data, C2, C3 raw), flip up to three bits in C0 and up to three in C1; the receive chain returns exactly the payload, and the reported total error count is the number of flipped data bits, except that with no data error in C0 an odd number of flipped C0 check bits counts as one.", "quantifier": "every payload (2^49) and every admissible error pattern", "why_tests_cant": "Input space and pattern space far beyond enumeration.", "anchors": ["src/ambe/ambe_common.c: mbe_demodulateAmbe3600Data_common, mbe_eccAmbe3600Data_common"]}
{"id": "C10", "title": "Demodulation is an involution that never touches C0", "statement": "For each codec's demodulation entry point, applying it twice to any frame of 0/1 bits restores the frame, and it leaves C0 (and every word it is not meant to descramble) unchanged. Scrambling at the transmitter is therefore the same function.", "quantifier": "every frame of 0/1 chars, all four codecs", "why_tests_cant": "A relation between two runs over all 2^144 / 2^72 frames.", "anchors": ["src/imbe/imbe7200x4400.c: mbe_demodulateImbe7200x4400Data", "src/imbe/imbe7100x4400.c: mbe_demodulateImbe7100x4400Data", "src/ambe/ambe_common.c"]}
{"id": "C11", "title": "PN generator arithmetic never overflows and stays 16-bit", "statement": "For every seed the scrambler recurrence equals pr' = (173 pr + 13849) mod 65536, computed without signed overflow, and every scrambling bit is 0 or 1; consequently demodulated chars stay 0/1.", "quantifier": "every seed value and every frame", "why_tests_cant": "Absence of undefined behaviour for all seeds.", "anchors": ["src/imbe/imbe7200x4400.c: mbe_demodulateImbe7200x4400Data", "src/ambe/ambe_common.c"]}
{"id": "C12", "title": "7100x4400 to 7200x4400 conversion is a bit permutation", "statement": "mbe_convertImbe7100to7200 permutes the 88 payload bits: every output bit is exactly one input bit, no bit is lost or duplicated, all accesses stay inside the 88-element arrays, for every payload.", "quantifier": "every 88-bit payload, i.e. every fundamental/K value it can encode", "why_tests_cant": "The permutation depends on a float-derived K; needs all 256 fundamentals and all payloads.", "anchors": ["src/imbe/imbe7100x4400.c: mbe_convertImbe7100to7200"]}
{"id": "C13", "title": "Bit errors are bounded", "statement": "The total error count reported in *errs2 by the frame entry points is between the C0 count and 15 for IMBE, and between the C0 count and 6 for AMBE; *errs is between 0 and 3; coset-4 count is 0 or 1.", "quantifier": "every frame content", "why_tests_cant": "An upper bound over all 2^144 frames.", "anchors": ["src/imbe/imbe7200x4400.c: mbe_processImbe7200x4400Framef", "src/imbe/imbe7100x4400.c", "src/ambe/ambe3600x2450.c", "src/ambe/ambe3600x2400.c"]}
{"id": "C14", "title": "IMBE harmonic count and fundamental stay in range", "statement": "For every payload mbe_decodeImbe4400Parms either reports an invalid fundamental (return 1, exactly when the 8-bit fundamental exceeds 207) leaving the spectral parameters unchanged, or sets 9 <= L <= 56, 1 <= K <= 12 with K = ceil(L/3) capped at 12, and w0 = 4*pi/(b0+39.5) within float rounding; the internal L range check can never fire.", "quantifier": "every 88-bit payload, under IEEE-754 binary32/binary64 arithmetic", "why_tests_cant": "All fundamentals through two roundings and truncations; the claim that a branch is dead is universal.", "anchors": ["src/imbe/imbe7200x4400.c: mbe_decodeImbe4400Parms"]}
{"id": "C15", "title": "IMBE quantizer bit allocation is a bijection", "statement": "For every L the 79 payload bits after the 6 leading fundamental bits map one-to-one onto the quantizer fields (voicing, gain, gain vector, higher-order coefficients): each field bit is written exactly once, every field bit that is later read was written, and no bit is written outside the field array.", "quantifier": "every L in 9..56 and every payload", "why_tests_cant": "48 hand-written tables of 158 numbers each; a duplicate entry silently loses a bit.", "anchors": ["src/internal/imbe7200x4400_const.h: bo, ba, hoba, ImbeJi", "src/imbe/imbe7200x4400.c: mbe_decodeImbe4400Parms"]}
{"id": "C16", "title": "IMBE parameter decode has no out-of-bounds or uninitialised access", "statement": "For every payload and every previous-frame state with L in 0..56, mbe_decodeImbe4400Parms performs no out-of-bounds table/array access and reads no uninitialised local. (As written one read of prev log2Ml[57] occurs when prev L = 56 and the interpolation index is 56; exactly that access is the only exception.)", "quantifier": "every payload and every reachable previous state, under IEEE-754 arithmetic", "why_tests_cant": "Index depends on float rounding of prevL/L*l for all pairs; sanitizers only see executed inputs.", "anchors": ["src/imbe/imbe7200x4400.c: mbe_decodeImbe4400Parms"]}
{"id": "C17", "title": "AMBE+2 (2450) parameter decode is memory safe", "statement": "For every 49-bit payload and every previous state with L in 0..56, mbe_decodeAmbe2450Parms accesses all tables in bounds and reads no uninitialised local, apart from the prev log2Ml[57] read at prev L = 56.", "quantifier": "every 49-bit payload, every previous state, IEEE-754 arithmetic", "why_tests_cant": "Codebook indices, V/UV column from float truncation, block lengths for all L.", "anchors": ["src/ambe/ambe3600x2450.c: mbe_decodeAmbe2450Parms", "src/internal/ambe3600x2450_const.h"]}
{"id": "C18", "title": "D-STAR (2400) parameter decode is memory safe", "statement": "For every 49-bit payload and previous state with L in 0..56, mbe_decodeAmbe2400Parms accesses all tables in bounds provided exp2f is accurate to 1e-3 relative on its argument range, apart from the prev log2Ml[57] read at prev L = 56.", "quantifier": "every payload, every previous state, every exp2f within the accuracy hypothesis", "why_tests_cant": "Depends on libm; universally quantified over admissible libm results.", "anchors": ["src/ambe/ambe3600x2400.c: mbe_decodeAmbe2400Parms", "src/internal/ambe3600x2400_const.h"]}
{"id": "C19", "title": "AMBE+2 frame classification", "statement": "mbe_decodeAmbe2450Parms returns 0 (voice), 2 (erasure) or 7 (tone) according to the first field value: below 120 voice, 120-123 and 126/127 erasure unless a tone signature is verified, 124/125 silence decoded as unvoiced voice frame; returns 7 exactly when the tone signature verifies.", "quantifier": "every 49-bit payload", "why_tests_cant": "Universal over 2^49 payloads.", "anchors": ["src/ambe/ambe3600x2450.c: mbe_decodeAmbe2450Parms"]}
{"id": "C20", "title": "D-STAR frame classification", "statement": "mbe_decodeAmbe2400Parms returns 0 exactly for frames whose first field is below 126, a single-tone index 5..122 exactly when the tone field decodes to it, and 3 otherwise (dual tones, silence).", "quantifier": "every 49-bit payload", "why_tests_cant": "Universal over 2^49 payloads with a scattered bit layout.", "anchors": ["src/ambe/ambe3600x2400.c: mbe_decodeAmbe2400Parms"]}
{"id": "C21", "title": "IMBE repeat decision and repeat counter", "statement": "A processed IMBE frame is a repeat exactly when the fundamental is invalid or the error thresholds are met (with C0 count: C0>=2 and total >= 10+40*rate; without: total > 5); the counter increases by exactly one per repeat and is zero after any non-repeat; a repeat with the counter already above 3 substitutes the documented default model instead of the last one.", "quantifier": "every history of frames and every caller-supplied error count", "why_tests_cant": "Unbounded histories and adversarial error counts.", "anchors": ["src/imbe/imbe7200x4400.c: mbe_processImbe4400Dataf, mbe_processImbe7200x4400Framef"]}
{"id": "C22", "title": "IMBE muting: four consecutive repeats mute, one good frame unmutes", "statement": "Over every history, an IMBE frame is output as comfort noise (and marked M) exactly when it is at least the fourth consecutive repeat or its error rate exceeds the IMBE threshold.", "quantifier": "every sequence of frames from an initialised state", "why_tests_cant": "Temporal property over unbounded histories.", "anchors": ["src/imbe/imbe7200x4400.c: mbe_processImbe4400Dataf", "src/core/mbe_adaptive.c: mbe_requiresMuting, mbe_isMaxFrameRepeat", "src/core/mbelib.c: mbe_synthesizeSpeechf"]}
{"id": "C23", "title": "AMBE muting: the fourth consecutive repeat mutes and resets", "statement": "Over every history of AMBE frames from an initialised state, the repeat counter visible after a frame is at most 3; a voice frame is muted exactly when it is the fourth consecutive repeat, and muting re-initialises all three parameter sets.", "quantifier": "every sequence of frames and error counts from an initialised state", "why_tests_cant": "Temporal property over unbounded histories.", "anchors": ["src/ambe/ambe3600x2450.c: mbe_processAmbe2450Dataf", "src/ambe/ambe3600x2400.c: mbe_processAmbe2400Dataf"]}
{"id": "C24", "title": "Repeated frames reuse the last good parameters exactly", "statement": "When a frame is marked R and not muted, the model parameters used for it (fundamental, L, voicing, log magnitudes, gamma, error rate, noise state) are exactly those stored for the previous frame; in particular the error-rate filter is not advanced by repeated frames.", "quantifier": "every state and every frame that is repeated", "why_tests_cant": "Universal over state; relates the whole struct before and after.", "anchors": ["src/core/mbelib.c: mbe_useLastMbeParms", "src/imbe/imbe7200x4400.c", "src/ambe/ambe3600x2450.c"]}
{"id": "C25", "title": "Status string format and size", "statement": "For every non-negative error count and every path, the status string is '=' repeated *errs2 times followed by one of the documented suffixes (none, E, T, R, M, RM) and a NUL, and no byte at or beyond index *errs2+3 is written.", "quantifier": "every payload, history and error count", "why_tests_cant": "Buffer-size claim over all paths and unbounded counts.", "anchors": ["src/imbe/imbe7200x4400.c", "src/ambe/ambe3600x2450.c", "src/ambe/ambe3600x2400.c", "include/mbelib-neo/mbelib.h"]}
{"id": "C26", "title": "Frame entry points are the documented pipeline; legacy arguments are inert", "statement": "Each ...Framef entry point equals C0 ECC, demodulation, data ECC (plus 7100->7200 conversion), then parameter processing; uvquality never influences any output; the *errs argument of the Data entry points never influences IMBE and AMBE 2450 outputs.", "quantifier": "all inputs and states, all values of the ignored arguments", "why_tests_cant": "Non-interference is a two-run property over all values.", "anchors": ["src/imbe/imbe7200x4400.c", "src/imbe/imbe7100x4400.c", "src/ambe/ambe3600x2450.c", "src/ambe/ambe3600x2400.c"]}
{"id": "C27", "title": "16-bit entry points are the float entry points followed by mbe_floattoshort", "statement": "Every short-PCM entry point yields exactly mbe_floattoshort of the float entry point's samples, and identical state, error counts and status string.", "quantifier": "all inputs and states", "why_tests_cant": "Two-run relation over all states.", "anchors": ["src/imbe/imbe7200x4400.c", "src/ambe/ambe3600x2450.c", "src/ambe/ambe3600x2400.c", "src/core/mbelib.c: mbe_synthesizeSpeech, mbe_synthesizeSilence, mbe_floattoshort"]}
{"id": "C28", "title": "mbe_floattoshort: range, monotonicity, no undefined conversion", "statement": "For every non-NaN float sample (including infinities and values far outside range) the conversion to short is defined, the result lies in [-31128, 31128], is monotone in the sample, odd-symmetric, and the SSE2 path gives the same value; for NaN the scalar conversion is undefined.", "quantifier": "every binary32 value", "why_tests_cant": "2^32 values under exact rounding and a relation between two implementations.", "anchors": ["src/core/mbelib.c: mbe_floattoshort"]}
{"id": "C29", "title": "Soft clip bound on synthesised speech", "statement": "Every sample of synthesised speech is within +-(32767*0.95/7) or NaN; NaN is possible only if a voiced/unvoiced component was NaN. Hence the short PCM path is defined whenever no component is NaN.", "quantifier": "every state, parameter set and libm", "why_tests_cant": "Universal over state and over uninterpreted libm/FFT results.", "anchors": ["src/core/mbelib.c: mbe_synthesizeSpeechf"]}
{"id": "C30", "title": "Comfort noise is bounded, deterministic and java.util.Random compatible", "statement": "After mbe_setThreadRngSeed(s) the k-th comfort-noise sample is the documented function of the k-th output of java.util.Random seeded with s (seed 0 remapped), for all k; every sample lies in [-gain, gain) with gain = 0.003*32767/7, so the 16-bit version lies within +-98; 160 draws are consumed per frame. A thread that is never seeded gets the stream of seed 0x12345678.", "quantifier": "every seed and every sample index, unbounded stream", "why_tests_cant": "Unbounded stream over all 2^32 seeds.", "anchors": ["src/core/mbe_adaptive.c: mbe_seedComfortNoiseRng, mbe_synthesizeComfortNoisef, mbe_synthesizeComfortNoise", "src/core/mbelib.c: mbe_setThreadRngSeed"]}
{"id": "C31", "title": "Unvoiced noise is one continuous LCG stream seen through sliding windows", "statement": "Successive noise buffers are 256-sample windows advancing by 160 over a single sequence x' = (171x+11213) mod 53125: the first 96 samples of each buffer are the last 96 of the one before; every value is an exact integer in 0..53124 and float arithmetic introduces no rounding.", "quantifier": "every number of frames and every seed in range", "why_tests_cant": "Exactness of float arithmetic and alignment over unbounded history.", "anchors": ["src/core/mbe_unvoiced_fft.c: mbe_generate_noise_lcg, mbe_generate_noise_with_overlap"]}
{"id": "C32", "title": "Repeat frames replay the same noise excitation", "statement": "Because the saved previous-frame state predates synthesis, a repeated speech frame is synthesised with exactly the same 256-sample noise excitation as the frame it repeats, rather than with the continuation of the stream.", "quantifier": "every state in which a repeat follows a synthesised frame", "why_tests_cant": "Relation between two consecutive frames over all states.", "anchors": ["src/imbe/imbe7200x4400.c: mbe_processImbe4400Dataf", "src/core/mbe_unvoiced_fft.c: mbe_generate_noise_with_overlap"]}
{"id": "C33", "title": "Tone synthesis is phase-continuous and tone tables are total", "statement": "For consecutive tone frames with the same tone index the sample sequence is one continuous pair of phase accumulators: sample n of frame m uses phase 160*m+n times the step modulo 2^32; tone frequency lookup succeeds exactly for the documented indices and silence is written otherwise with state untouched.", "quantifier": "every tone index, every starting phase, every number of frames", "why_tests_cant": "Unbounded history with modular arithmetic.", "anchors": ["src/core/mbelib.c: mbe_synthesizeTonef, mbe_synthesizeTonefdstar, mbe_renderTonef"]}
{"id": "C34", "title": "D-STAR single-tone frames are audible (documented)", "statement": "A D-STAR frame carrying a valid single tone with few errors should produce the tone. (As written the tone is synthesised and then unconditionally overwritten by comfort noise and the state re-initialised; that behaviour is what is proved, with the negation of the documented one.)", "quantifier": "every payload classified as a tone, every state", "why_tests_cant": "The defect is a control-flow fact for all tone frames.", "anchors": ["src/ambe/ambe3600x2400.c: mbe_processAmbe2400Dataf"]}
{"id": "C35", "title": "Initialisation produces the documented state regardless of memory contents", "statement": "mbe_initMbeParms and mbe_initAmbeParms set every field read later: outputs do not depend on prior contents of the three structs, and the three structs end up equal where documented.", "quantifier": "every prior content of the three structs", "why_tests_cant": "Independence from all prior memory is a two-run universal statement.", "anchors": ["src/core/mbelib.c: mbe_initMbeParms", "src/ambe/ambe_common.c: mbe_initAmbeParms_common"]}
{"id": "C36", "title": "State invariant over all histories", "statement": "Starting from an initialised state, after any finite sequence of process calls of one codec family (any payload, any error counts): L of all three parameter sets is in 9..56 (or the documented initial value), voicing flags are 0/1, repeat counter within its bound, muting threshold is the codec's.", "quantifier": "every finite sequence of calls", "why_tests_cant": "Inductive invariant over unbounded histories.", "anchors": ["include/mbelib-neo/mbelib.h: mbe_parms", "src/imbe/imbe7200x4400.c", "src/ambe/ambe3600x2450.c", "src/ambe/ambe3600x2400.c", "src/core/mbelib.c:205-290"]}
{"id": "C37", "title": "Threads do not interfere", "statement": "For calls on distinct parameter sets by distinct threads, every interleaving yields for each thread the same outputs and final state as running its calls alone; mbe_setThreadRngSeed on one thread does not change any other thread's output. Each thread that works on one decoder gets the samples, strings and final state of the same program run sequentially on that decoder, and every other public call acts on exactly the sets it is given.", "quantifier": "every number of threads, every interleaving of calls", "why_tests_cant": "Universal over schedules.", "anchors": ["src/core/mbelib.c: mbe_setThreadRngSeed", "src/core/mbe_adaptive.c", "src/core/mbe_unvoiced_fft.c", "src/internal/mbe_compiler.h"]}
{"id": "C38", "title": "Switching codec family re-initialises AMBE state", "statement": "If the previous-frame state was left by IMBE (or is freshly IMBE-initialised), the first AMBE call behaves exactly as if mbe_initAmbeParms had just been called; if left by AMBE with the AMBE threshold the state is preserved.", "quantifier": "every state with the given muting threshold", "why_tests_cant": "Two-run equality over all states and payloads.", "anchors": ["src/ambe/ambe_common.c: mbe_ensureAmbeDefaults_common"]}
{"id": "C39", "title": "Unvoiced synthesis touches only bins 0..128", "statement": "For every fundamental and band count, band edge bins are clamped so that each spectrum access is within the 256-point half spectrum, band ranges are within [0,128], and only unvoiced bands contribute.", "quantifier": "every w0, L, voicing pattern and noise buffer", "why_tests_cant": "Float-derived indices for all inputs.", "anchors": ["src/core/mbe_unvoiced_fft.c: mbe_synthesizeUnvoicedFFTWithNoise"]}
{"id": "C40", "title": "WOLA combination: window support and reconstruction", "statement": "The fast overlap-add equals the general one for the 160-sample frame, reads the two 256-sample buffers only in bounds, never divides by zero, and (in exact arithmetic) reconstructs a signal that was windowed identically in both buffers. The public function for unvoiced synthesis alone adds exactly this term, for the block of the previous set and the new block.", "quantifier": "every pair of buffers", "why_tests_cant": "Equality of two implementations and reconstruction over all real-valued buffers.", "anchors": ["src/core/mbe_unvoiced_fft.c: mbe_wola_combine, mbe_wola_combine_fast, mbe_synthesisWindow"]}
{"id": "C41", "title": "Adaptive smoothing only engages on errors and bounds amplitude", "statement": "With error rate at most 0.5% and at most 4 errors, adaptive smoothing changes neither voicing nor amplitudes unless the amplitude sum exceeds 20480; voicing flags are only ever changed from unvoiced to voiced; after smoothing (exact arithmetic) the amplitude sum is at most the threshold when the threshold is positive; local energy is always at least 10000. The public query for smoothing says yes exactly above an error rate of 1.25% or with more than four errors, which is not the condition smoothing itself uses (that starts at 0.5%).", "quantifier": "every parameter set and previous state", "why_tests_cant": "Universal over float state.", "anchors": ["src/core/mbe_adaptive.c: mbe_applyAdaptiveSmoothing"]}
{"id": "C42", "title": "Amplitude threshold cannot overflow", "statement": "The smoothing threshold stored across frames stays within int range for every history of frames. (As written it grows by up to 5700 per errored frame without bound, so it does overflow after enough frames; an explicit history is exhibited and a bound for short histories is proved.)", "quantifier": "every number of consecutive frames with errors", "why_tests_cant": "Needs about 377000 frames; no unit test runs that long.", "anchors": ["src/core/mbe_adaptive.c: mbe_applyAdaptiveSmoothing"]}
{"id": "C43", "title": "Spectral amplitude enhancement preserves energy", "statement": "In exact arithmetic, for every nonnegative spectrum that is not identically zero, enhancement keeps the sum of squared amplitudes unchanged and every amplitude nonnegative, and bands with 8l <= L receive only the common gain.", "quantifier": "every w0, L and amplitude vector (over the reals)", "why_tests_cant": "Universal real-valued statement.", "anchors": ["src/core/mbelib.c: mbe_spectralAmpEnhance"]}
{"id": "C44", "title": "AMBE gain: mean log amplitude is the transmitted gain", "statement": "In exact arithmetic, for every voice payload and previous state the mean of the decoded log2 magnitudes over l=1..L equals the decoded gain minus half log2 of L; neither shape bits nor the previous spectrum shift the mean.", "quantifier": "every voice payload and previous state (over the reals)", "why_tests_cant": "Universal real-valued statement.", "anchors": ["src/ambe/ambe3600x2450.c: mbe_decodeAmbe2450Parms", "src/ambe/ambe3600x2400.c: mbe_decodeAmbe2400Parms"]}
{"id": "C45", "title": "Bounded prediction state in exact arithmetic", "statement": "In exact arithmetic the spread (max minus min) of the log magnitudes after any number of frames stays below a fixed bound depending only on the codebooks, because the predictor contracts differences by at most 0.7.", "quantifier": "every number of frames and every payload sequence", "why_tests_cant": "Stability over unbounded histories.", "anchors": ["src/imbe/imbe7200x4400.c: mbe_decodeImbe4400Parms", "src/ambe/ambe3600x2450.c", "src/ambe/ambe3600x2400.c"]}
{"id": "C46", "title": "Voiced phase tracks are continuous across frames", "statement": "In exact arithmetic, for a harmonic voiced in both frames under phase interpolation the synthesised phase at the end of the frame equals the stored phase for the next frame modulo 2*pi, and amplitude interpolation starts at the previous and ends at the current amplitude.", "quantifier": "every pair of consecutive parameter sets (over the reals)", "why_tests_cant": "Universal real-valued statement.", "anchors": ["src/core/mbelib.c: mbe_synthesizeSpeechf"]}
{"id": "C47", "title": "Speech synthesis is memory safe", "statement": "For every pair of parameter sets with L in 0..56, mbe_synthesizeSpeechf writes exactly the 160 output samples and accesses the window table and band arrays in bounds.", "quantifier": "every parameter set with L in range, any float contents for voiced synthesis", "why_tests_cant": "Universal over float state.", "anchors": ["src/core/mbelib.c: mbe_synthesizeSpeechf"]}
{"id": "C48", "title": "Caching is invisible", "statement": "The thread-local cosine tables, FFT plan and enhancement caches never change results: any state of the caches reachable on a thread gives the same outputs as empty caches.", "quantifier": "every reachable cache state, every call", "why_tests_cant": "Two-run relation over cache states.", "anchors": ["src/imbe/imbe7200x4400.c", "src/ambe/ambe3600x2450.c", "src/ambe/ambe3600x2400.c", "src/core/mbelib.c:205-290"]}
{"id": "C49", "title": "Synthesis RNG state is never stuck", "statement": "mbe_setThreadRngSeed with any seed, including 0, leaves a nonzero generator state, the generator maps nonzero states to nonzero states bijectively, so the noise stream never degenerates to constant zero.", "quantifier": "every 32-bit seed and every number of draws", "why_tests_cant": "All 2^32 states and unbounded draws.", "anchors": ["src/core/mbelib.c: mbe_setThreadRngSeed, mbe_xorshift32"]}
{"id": "C50", "title": "Version string copy", "statement": "For every version string, mbe_printVersion writes at most 32 bytes: the first min(length,31) characters of the version followed by a NUL, and touches nothing else; a null destination is ignored.", "quantifier": "every version string and every prior buffer content", "why_tests_cant": "Frame condition over buffer contents.", "anchors": ["src/core/mbelib.c: mbe_printVersion"]}
{"id": "C51", "title": "Whole programs of documented calls are free of undefined behaviour", "statement": "Any program that, on one thread and one initialised decoder state, makes up to 357000 documented calls (any mix of the frame and data entry points of all codecs, re-initialisations and reseedings, in any order, with 0/1 frames or payloads and non-negative error counts) never performs an out-of-bounds write, an uninitialised read, an out-of-range float-to-int conversion or a signed overflow; the only undefined operation that can occur is the read one past the end of log2Ml.", "quantifier": "every list of documented calls and every argument value", "why_tests_cant": "Universal over call sequences of unbounded shape and all arguments.", "anchors": ["include/mbelib-neo/mbelib.h", "src/imbe/imbe7200x4400.c", "src/imbe/imbe7100x4400.c", "src/ambe/ambe3600x2450.c", "src/ambe/ambe3600x2400.c", "src/core/mbelib.c:205-290"]}
{"id": "C52", "title": "Reserved payload bits are inert", "statement": "IMBE payload bit 87 and AMBE 3600x2400 payload bit 24 never influence samples, status text or decoder state.", "quantifier": "every pair of payloads differing only there, every state, every error count", "why_tests_cant": "Two-run equality over all payloads and states.", "anchors": ["src/imbe/imbe7200x4400.c: mbe_decodeImbe4400Parms", "src/ambe/ambe3600x2400.c: mbe_decodeAmbe2400Parms"]}
{"id": "C53", "title": "The decoded spectrum is the transmitted one", "statement": "Running the encoder's analysis on the decoded log amplitudes (subtract the prediction from the previous frame, cut into blocks, cosine transform per block, transform of the block means) returns exactly the gain vector, block coefficients and gain that the payload selects, and these values determine the spectrum; the amplitudes are 2^log (times 0.2046/sqrt(w0) for unvoiced AMBE harmonics). Exact arithmetic.", "quantifier": "every valid payload of the three voice codecs and every previous frame with at most 56 harmonics", "why_tests_cant": "A round-trip law over 2^88 and 2^49 payloads and a continuum of previous spectra; a wrong block length, weight or index for one number of harmonics changes only a few coefficients of some frames and still sounds like speech.", "anchors": ["src/imbe/imbe7200x4400.c: mbe_decodeImbe4400Parms", "src/ambe/ambe3600x2450.c: mbe_decodeAmbe2450ParmsInternal", "src/ambe/ambe3600x2400.c: mbe_decodeAmbe2400Parms"]}
{"id": "C54", "title": "Decoders that receive the same frames converge", "statement": "Whatever two decoders received before (lost frames, errors, late start), n further frames that both receive intact leave the same fundamental and number of harmonics, and log amplitudes that differ by at most 496*0.7^n (IMBE) or 520*0.65^n (AMBE, gain 27.6/2^n). Exception recorded: element 0 of the IMBE log spectrum is never renewed by IMBE frames, so a value left by AMBE without initialisation stays. Exact arithmetic.", "quantifier": "every pair of histories, every common sequence of good frames of any length", "why_tests_cant": "A statement about all pairs of histories and all continuations; a test sees convergence for one stream.", "anchors": ["src/imbe/imbe7200x4400.c: mbe_decodeImbe4400Parms, mbe_processImbe4400Dataf_withC0", "src/ambe/ambe3600x2450.c: mbe_processAmbe2450Dataf_internal", "src/ambe/ambe3600x2400.c: mbe_processAmbe2400Dataf"]}
{"id": "C55", "title": "The vector builds compute the same function as the scalar build", "statement": "With MBELIB_ENABLE_SIMD (SSE2 or NEON) every program of calls delivers, in exact arithmetic, the same samples, status strings and states as the scalar build. In IEEE arithmetic the amplitude scaling, the normalisation, the overlap-add and the 16-bit conversion (of every buffer without NaN, through the run-time dispatch, on every target) are equal bit for bit. Exceptions recorded: sums are reassociated and may differ in the last bit; the voiced block gives NaN for amplitudes of 2^127 and more where the scalar code gives 0; NaN converts to 0 with NEON, -31128 with SSE2, and is undefined in the scalar code.", "quantifier": "every program, every parameter set, every buffer, both instruction sets", "why_tests_cant": "A test compares the two builds on sample frames within a tolerance; it cannot separate rounding from a wrong lane, tail or index on other lengths.", "anchors": ["src/core/mbelib.c: mbe_spectralAmpEnhance, mbe_add_voiced_block4, mbe_floattoshort_sse2, mbe_floattoshort_neon, mbe_init_runtime_dispatch, mbe_floattoshort", "src/core/mbe_unvoiced_fft.c: mbe_wola_combine_fast, mbe_magnitude_squared_sum, mbe_synthesizeUnvoicedFFTWithNoise"]}
{"id": "C56", "title": "The vector builds perform no undefined operation", "statement": "On a build with vector code, no four-lane load or store leaves its array, whatever the floats in the parameter sets; a program of at most 357000 documented calls on an initialised decoder is defined (up to the log2Ml[57] read of C16-C18); the sample bound of C29 holds.", "quantifier": "every program of documented calls, every parameter set with at most 56 harmonics, both instruction sets", "why_tests_cant": "Whether a four-lane access at the end of an array overruns depends on the number of harmonics and the offset; the combinations are too many, and an overrun by a lane usually goes unnoticed.", "anchors": ["src/core/mbelib.c: mbe_spectralAmpEnhance, mbe_add_voiced_block4, mbe_synthesizeSpeechf", "src/core/mbe_unvoiced_fft.c: mbe_wola_combine_fast, mbe_magnitude_squared_sum, mbe_synthesizeUnvoicedFFTWithNoise"]}
{"id": "C57", "title": "The printing functions show every bit exactly once", "statement": "The nine mbe_dump* functions read only inside their arrays whatever the contents; for 0/1 contents they print exactly the payload bits in transmission order, or the codewords of the frame most significant bit first, with the documented field separators and labels; different payloads or frames print differently. Other contents, negative ones included, are printed as decimal numbers.", "quantifier": "every array contents; every 0/1 payload and frame", "why_tests_cant": "2^88 payloads and 2^144 frames; a printed bit in the wrong place is invisible unless the tested frame differs there.", "anchors": ["src/imbe/imbe7200x4400.c: mbe_dumpImbe4400Data, mbe_dumpImbe7200x4400Data, mbe_dumpImbe7200x4400Frame", "src/imbe/imbe7100x4400.c: mbe_dumpImbe7100x4400Data, mbe_dumpImbe7100x4400Frame", "src/ambe/ambe3600x2450.c: mbe_dumpAmbe2450Data, mbe_dumpAmbe3600x2450Frame", "src/ambe/ambe3600x2400.c: mbe_dumpAmbe2400Data, mbe_dumpAmbe3600x2400Frame"]}
{"id": "C58", "title": "The FFT plan survives any shortage of memory", "statement": "Whatever requests for memory the system refuses, plan allocation returns a complete plan or returns null with every block given back, no block is released twice or used after release, and any number of frames on a thread leaves it with the seven blocks of one plan or none. Violated: pffft_new_setup does not check its two requests, so a refusal there dereferences a null pointer (C58_setup_unchecked).", "quantifier": "every pattern of granted and refused requests, every initial heap, every number of frames", "why_tests_cant": "Allocation failures do not happen in tests; the pattern of failures is unbounded over frames.", "anchors": ["src/core/mbe_unvoiced_fft.c: mbe_fft_plan_alloc, mbe_fft_plan_free", "src/core/mbelib.c: mbe_get_fft_plan", "src/external/pffft/pffft.c: pffft_new_setup, pffft_destroy_setup, pffft_aligned_malloc, pffft_aligned_free"]}
{"id": "C59", "title": "The error-rate filter: what it stores, when it mutes, how fast muting ends", "statement": "Over every history of AMBE frames the stored error rate is 0.95*previous + 0.001064*errors for speech and erasure frames, unchanged for tones and the first three repeats in a row, and zero after the fourth repeat or a non-speech frame. Over every history of IMBE frames with at most 11 errors each the rate never exceeds 0.0875, so no frame is muted because of it; with 12 errors per frame the 133rd frame is. After any history of frames with at most 15 errors (all that error correction can report) the fifth error-free frame in a row is speech, and four do not suffice.", "quantifier": "all histories of frames, all payloads, all libm functions, IEEE-754 binary32", "why_tests_cant": "The limits are suprema over unboundedly long streams under rounding; a test sees one stream.", "anchors": ["src/imbe/imbe7200x4400.c:589-600", "src/ambe/ambe3600x2450.c:633-642", "src/ambe/ambe3600x2400.c:607-620", "src/core/mbe_adaptive.c:99-105", "src/core/mbelib.c:915-916"]}
{"id": "C60", "title": "Local energy, voicing limit and the hand-off of the frame energy", "statement": "The energy that adaptive smoothing adds to its running average is that of the amplitudes before spectral enhancement of the same frame: it is handed over by mbe_spectralAmpEnhance, consumed once, and over every history of process calls never left for a later frame. The new average is max(10000, 0.95*E + 0.05*sum M^2), with 75000 in place of an E below 10000. Smoothing declares a band voiced exactly when its amplitude exceeds the limit: FLT_MAX for a rate up to 0.005 with at most 4 errors, 45.255*E^(3/8)/exp(277.26*rate) for a rate up to 0.0125 without errors in coset 4, and 1.414*E^(3/8) otherwise.", "quantifier": "all histories and states; the formulas in exact arithmetic, the hand-off in every arithmetic", "why_tests_cant": "Whether a hidden thread-local value can survive into another frame is a statement about all call sequences.", "anchors": ["src/core/mbe_adaptive.c:40-51", "src/core/mbe_adaptive.c:190-236", "src/core/mbelib.c:272-506"]}
{"id": "C61", "title": "The FFT runs without undefined behaviour and is a function of its input", "statement": "pffft_new_setup(256, PFFFT_REAL) finds the factors 4,4,4,4 and never returns null for lack of a factorisation. With it, both ordered transforms of 256 floats access only memory within their blocks, read no uninitialised float, fail no assertion, leave the input unchanged, and write a complete output that depends on the input alone, not on the old contents of the output and work blocks.", "quantifier": "every arithmetic, every input, any contents (also uninitialised) of the output and work blocks", "why_tests_cant": "Index arithmetic over four passes and 1024 addresses, and dependence on stale memory, show up only for particular garbage or not at all.", "anchors": ["src/external/pffft/pffft.c:749-924", "src/external/pffft/pffft.c:1109-1261", "src/external/pffft/pffft.c:1360-1417", "src/external/pffft/pffft.c:2026-2143", "src/core/mbe_unvoiced_fft.c:702", "src/core/mbe_unvoiced_fft.c:748"]}
{"id": "C62", "title": "The forward transform is the discrete Fourier transform", "statement": "In exact arithmetic, pffft_transform_ordered(FORWARD) computes X(k) = sum a(n) exp(-2 pi i k n/256) and stores Re X(0), Re X(128), then Re and Im of X(1..127), which is the layout that mbe_unvoiced_fft.c documents and assumes. Parseval's identity holds; the two float constants of the code are the binary32 numbers nearest to -sqrt(1/2) and -sqrt(2).", "quantifier": "every real input vector of 256 samples", "why_tests_cant": "Tests compare a few signals up to a tolerance; a wrong twiddle factor or sign in one of 256 outputs can hide below it.", "anchors": ["src/external/pffft/pffft.c:749-835", "src/external/pffft/pffft.c:1230-1261", "src/core/mbe_unvoiced_fft.c:499-506"]}
{"id": "C63", "title": "The backward transform is the unnormalised inverse", "statement": "In exact arithmetic, pffft_transform_ordered(BACKWARD) computes sum over all 256 bins of X(k) exp(2 pi i k n/256), the upper bins being conjugates of the lower; BACKWARD(FORWARD(x)) = 256 x as pffft.h documents, and FORWARD(BACKWARD(X)) = 256 X; both are bijective.", "quantifier": "every real vector of 256 elements", "why_tests_cant": "A round-trip test on samples cannot establish the inverse for all vectors, and an error that both directions share passes it.", "anchors": ["src/external/pffft/pffft.c:837-924", "src/external/pffft/pffft.h:117"]}
{"id": "C64", "title": "Spectrum of the unvoiced block", "statement": "In exact arithmetic with the transforms of the code, the discrete Fourier transform of the block that unvoiced synthesis hands to the overlap-add is that of the windowed noise times a real gain per bin; the gain vanishes in bin 128 and in every bin outside the unvoiced bands; each unvoiced band has power (146.17696 Ml)^2 per bin whenever the noise has power above 1e-10 there, and zero otherwise.", "quantifier": "all noise vectors, fundamentals >= 0, amplitudes, voicing decisions", "why_tests_cant": "It is an identity between the time-domain output and the parameters for all noise sequences.", "anchors": ["src/core/mbe_unvoiced_fft.c:668-783"]}
{"id": "C65", "title": "Samples of valid frames are finite", "statement": "Transmissions without bit errors yield finite samples, and the 16-bit entry points convert them without undefined behaviour. As worded this is false, and the exact failure is the property proved: there is a 7200x4400 frame, a valid codeword without any bit error, such that after mbe_initMbeParms (whatever the decoder did before) and seven receptions of it, every reception of it next delivers 160 NaN samples, because the energy RM0 of mbe_spectralAmpEnhance exceeds 2^64 and its square overflows; likewise there is an error-free 3600x2450 frame whose eleventh reception after initialisation delivers 160 NaN samples; mbe_floattoshort then converts a NaN to short, which is undefined (the SSE2 version delivers -31128 for each). Conversely, for every program of calls from initialised structures with valid arguments and error counts up to 20 whose decoded amplitudes stay at or below 2^27 (and are all zero or not all below 2^-10), every delivered sample is finite and converts to 16 bits without undefined behaviour; each FFT of the code grows a bound by at most 4096. An AMBE erasure followed by a repeated frame still stores NaN amplitudes (0/0 in the enhancement), which are not audible.", "quantifier": "every libm with cosf within 2^-16 and exp2f within a factor 1 +- 2^-16 (for AMBE also log2f within 2^-16), every earlier history of the decoder, every call argument", "why_tests_cant": "The failing payload is one of 2^88 and needs eight receptions in a row; random tests and recorded speech never reach amplitudes above 2^32.", "anchors": ["src/core/mbelib.c:272-506", "src/core/mbelib.c:985-1040", "src/core/mbelib.c:1230-1251", "src/imbe/imbe7200x4400.c:430-560", "src/ambe/ambe3600x2450.c:335-590", "src/core/mbelib.c:508-860", "src/external/pffft/pffft.c:749-924"]}
{"id": "C66", "title": "An AMBE+2 tone frame, from payload to samples", "statement": "A received AMBE 3600x2450 tone frame (tone signature, fewer than 6 bit errors) whose 8-bit index is in the tone table yields a signal that, over any run of such frames, stays within 0.005 + N/300000 of the ideal cosine (or half-amplitude sum of two cosines) with the frequencies and the amplitude carried by the payload, where N counts samples from the start of the run; the peak is 95% of 16-bit full scale after the output gain. The status string is the '=' marks and 'T'; previous and enhanced parameters and all thread-local state are untouched. A tone frame whose index is not in the table plays the last enhanced speech model and leaves the previous parameters and the oscillators alone. The sample counters of the tone generator stay in the range of int.", "quantifier": "every payload, error count, starting phase and AMBE history, every sine function accurate to 2^-22", "why_tests_cant": "Unbounded runs of frames, accumulated float rounding for every amplitude, phase and frequency, and 2^32 starting phases.", "anchors": ["src/ambe/ambe3600x2450.c: mbe_processAmbe2450Dataf_internal, ambe2450_is_valid_tone_id", "src/core/mbelib.c: mbe_synthesizeTonef, mbe_renderTonef"]}
{"id": "C67", "title": "Tone frames leave speech as if they had not been there", "statement": "Inserting any number of table tones into a history of AMBE calls does not change anything that follows: each later call succeeds or fails as before, with the same status string, and with the same samples unless it is itself a table tone (whose oscillators have moved on).", "quantifier": "every history before, every list of tones, every history after, both AMBE decoders", "why_tests_cant": "Relates two unbounded executions for all histories.", "anchors": ["src/ambe/ambe3600x2450.c:696-706", "src/core/mbelib.c: mbe_synthesizeTonef"]}
{"id": "C68", "title": "The binary32 transforms are close to the exact ones", "statement": "With cosf and sinf accurate to 2^-22 on [-8, 8], the forward transform computed by the code in binary32, every operation rounded, differs from the discrete Fourier transform of its input by at most B/200 in every coefficient, where B bounds the input; the backward transform differs from the unnormalised inverse by at most B/100; and backward after forward is 256 times the input up to 6*B.", "quantifier": "every input of 256 floats bounded by B, every B from 2^-100 to 2^100 (2^90 for the round trip), every library meeting the accuracy hypothesis", "why_tests_cant": "The largest rounding error over 2^8192 inputs cannot be found by trying some; a wrong twiddle entry may cost only a fraction of a percent in a few bins.", "anchors": ["src/external/pffft/pffft.c:749-924", "src/external/pffft/pffft.c:1109-1261", "src/external/pffft/pffft.c:1360-1417", "src/external/pffft/pffft.c:2026-2143", "src/core/mbe_unvoiced_fft.c:702", "src/core/mbe_unvoiced_fft.c:748"]}
{"id": "C69", "title": "Rounding errors of the IMBE amplitudes do not accumulate", "statement": "The log amplitudes of a frame are predicted from those of the frame before, in binary32. After any number of IMBE frames, good, repeated or replaced by the default model, every log amplitude is a number within 0.051 of the one that exact arithmetic would have produced from the same frames, the number of bands is the same, the differences between bands are within 0.06, and the amplitudes themselves within 4 percent wherever the exact log amplitude lies between -15.9 and 63.9.", "quantifier": "every finite sequence of calls of the IMBE entry points with 88-bit payloads and any error counts, on a state from mbe_initMbeParms in a new thread, and every libm whose cosf and exp2f are accurate to 2^-16", "why_tests_cant": "The prediction feeds its own rounding errors back with a factor of up to 0.7, and the mean removed from it with the same factor; whether the errors stay bounded depends on the worst sequence of frames of any length.", "anchors": ["src/imbe/imbe7200x4400.c:344-357", "src/imbe/imbe7200x4400.c:470-526", "src/imbe/imbe7200x4400.c:581-649", "src/imbe/imbe7200x4400.c:56-80", "src/core/mbelib.c:213-264"]}
{"id": "C70", "title": "The vector transform computes the same as the scalar one", "statement": "In the builds with SIMD, pffft computes the 256-point transforms on vectors of four floats: four interleaved transforms of 64 points, a combining step with its own twiddle factors, and a reordering by transposes and swaps of halves. The setup succeeds with the factors 4, 4, 4; both transforms end without undefined behaviour for every input, read no uninitialised float whatever the output and scratch blocks hold, keep the input and write a function of it. In exact arithmetic this function is the discrete Fourier transform in the ordered layout, and its unnormalised inverse, so the vector build and the scalar build compute the same; the NEON transposition is that of SSE.", "quantifier": "every input of 256 floats in every arithmetic, every content of the other blocks; for the values, every input of 256 real numbers", "why_tests_cant": "Index errors in the reordering or a wrong sign in one lane of the combining step change single bins; tests compare a few inputs within a tolerance and on one instruction set, and the build with SIMD is not the default.", "anchors": ["src/external/pffft/pffft.c:166-233", "src/external/pffft/pffft.c:1360-1417", "src/external/pffft/pffft.c:1428-1490", "src/external/pffft/pffft.c:1622-1834", "src/external/pffft/pffft.c:1836-1906"]}
{"id": "C71", "title": "Rounding errors of the vector transforms", "statement": "In binary32, with a library whose cosf and sinf are within 2^-22, every element of the forward transform of the vector build is a number within B/200 of the discrete Fourier transform of its input, B being a bound on the input, and every element of the backward transform within B/100 of the unnormalised inverse. So the builds with and without vectors, which round in a different order, agree within B/100 and B/50.", "quantifier": "every input of 256 finite floats bounded by a B between 2^-100 and 2^100, every libm with that accuracy", "why_tests_cant": "The worst rounding errors over 256 inputs in three passes and a combining step, and the error of tables that the platform's libm fills, are not found by sampling inputs on one platform.", "anchors": ["src/external/pffft/pffft.c:1360-1417", "src/external/pffft/pffft.c:1622-1834", "src/external/pffft/pffft.c:1836-1906"]}
{"id": "C72", "title": "AMBE parameters track those of exact arithmetic", "statement": "The gain and the log amplitudes of an AMBE frame are predicted from those of the frame before, in binary32; the fundamental of 3600x2400 comes from exp2f and decides, harmonic by harmonic, which voicing bit is used. After any number of AMBE frames of either codec, voice, silence, tone, erasure, repeated or muted, the number of bands and the voicing decision of every band are those exact arithmetic gives for the same frames, the fundamental is a number within 0.00004 of the exact one, the gain within 0.00001, every log amplitude within 0.058, the differences between bands within 0.07, and, wherever the exact log amplitude lies between -15.9 and 63.9, the amplitude of the band is within 5 percent of the exact amplitude.", "quantifier": "every finite sequence of calls of the AMBE 3600x2450 and 3600x2400 entry points, mixed, with 49-bit payloads and any error counts, on a state from mbe_initMbeParms (or from the library's own AMBE initialisation) in a new thread, and every libm whose cosf, exp2f and log2f are accurate to 2^-16", "why_tests_cant": "Gain and log amplitudes feed their own rounding errors back with factors 0.5 and 0.65, through an interpolation whose positions depend on both numbers of bands; whether the errors stay bounded depends on the worst sequence of frames of any length.", "anchors": ["src/ambe/ambe3600x2450.c:259-596", "src/ambe/ambe3600x2400.c:273-577", "src/ambe/ambe3600x2450.c:606-730", "src/ambe/ambe3600x2400.c:601-679", "src/core/mbelib.c:213-264"]}
{"id": "C73", "title": "A few corrected errors are inaudible", "statement": "When the forward error correction has repaired a frame, the number of errors it found still reaches the decoder: it drives the error rate, which selects repeats, muting, the adaptive smoothing of amplitudes and voicing and the amplitude threshold carried from frame to frame. As long as an IMBE frame has at most four errors counted (an AMBE frame at most three) and the error rate stays at or below 0.005, none of this acts: all samples are, bit for bit, those of the same transmission received without a single error, and the decoders end in the same state but for the error figures themselves.", "quantifier": "every sequence of IMBE payloads, or of AMBE 3600x2450 and 3600x2400 payloads mixed, of any length and after any common history from a fresh decoder; any two patterns of error counts within the limits; at frame level every pattern of correctable bit flips; every libm", "why_tests_cant": "The error rate is a recursive filter over all frames and feeds eight thresholds; equality must hold bit for bit over histories of any length and for every placement of errors.", "anchors": ["src/core/mbe_adaptive.c:177-266", "src/imbe/imbe7200x4400.c:581-714", "src/ambe/ambe3600x2450.c:626-787", "src/ambe/ambe3600x2400.c:601-718"]}
{"id": "C74", "title": "Different payloads are different frames", "statement": "No information in a payload is lost on the way to the synthesis, except where the format says so. In exact arithmetic and after the same previous frame, two valid IMBE payloads give the same fundamental, voicing decisions and amplitudes if and only if they agree in all bits but the reserved one. Two AMBE 2450 voice or silence payloads do so if and only if they agree in fundamental, gain and both vectors, in the higher coefficients of the blocks that have any, and in the voicing decisions of the bands that contain a harmonic. For AMBE 2400 the gain and the first vector have to agree only as values: its tables have equal entries, so that some payloads differ in a bit that says nothing.", "quantifier": "every pair of valid payloads of the same codec, every common previous frame with 1 (IMBE: 0) to 56 harmonics", "why_tests_cant": "It compares all pairs of 2^87 (IMBE) or 2^49 (AMBE) payloads after every possible previous frame.", "anchors": ["src/imbe/imbe7200x4400.c:275-529", "src/ambe/ambe3600x2450.c:259-596", "src/ambe/ambe3600x2400.c:273-577", "src/internal/ambe3600x2400_const.h:387-470"]}
{"id": "C75", "title": "Voiced synthesis in binary32 stays within 1% of exact arithmetic", "statement": "The samples of an unmuted frame computed in binary32, with the rotation recurrences of the oscillators, are within 1/140 of the sum of the amplitudes of the voiced harmonics (plus 2^-15 of the largest unvoiced sample and 1/4000 of a unit) of the exact sum of the harmonics and the overlap-added noise, clipped. Each harmonic is the one that exact arithmetic defines for the stored parameter sets; only the choice between the two oscillators may differ when the fundamental changes by a tenth up to 2^-20, and the phase correction of a glide may exceed half a turn by 1/1000 of a radian. The stored phase advances by the mean frequency up to 1/500 of a radian per frame, and the phases stay bounded in runs of any length. Hence every block that any program of calls delivers (as long as the decoded amplitudes stay moderate, as in C65) is comfort noise, a tone, or such a frame.", "quantifier": "every pair of parameter sets with a fundamental between 1/64 and 5/8 (or 0), 9 to 56 harmonics, amplitudes up to 2^32, phases up to 32 + 100 l; every mathematical library whose sinf and cosf are within 2^-20; every run of frames; every program of calls of the entry points", "why_tests_cant": "The error bound holds for all 2^32 values of each of some 300 parameters and for runs of any length; a test samples a few signals and cannot separate rounding errors from errors of the algorithm.", "anchors": ["src/core/mbelib.c:126-165", "src/core/mbelib.c:922-1061", "src/core/mbe_unvoiced_fft.c:277-317"]}
{"id": "C76", "title": "Unvoiced synthesis in binary32 is noise of the decoded level, band by band", "statement": "The unvoiced block that a frame computes in binary32 is its noise, windowed, transformed, and scaled bin by bin. The gain is 0 outside the unvoiced bands. It is one number in all bins of an unvoiced band, and it gives the band the root mean square 146.17696 Ml over its bins within 1/10000 (or is 0 if the band has practically no noise). Band l begins at bin ceil((l - 1/2) 256 w0 / 2 pi), the product under the ceiling within 2^-20. Rounding in the two transforms adds at most a tenth of the largest amplitude to each sample. The energy of the block is at most (147 A)^2 for amplitudes up to A, hence each sample at most 148 A. Every block that any program of calls delivers (as long as the decoded amplitudes stay moderate, as in C65) is comfort noise, a tone, or the clipped sum of the voiced harmonics of C75 and the overlap-add of two such unvoiced blocks, within the stated error.", "quantifier": "every parameter set with a fundamental between 1/64 and 5/8 (or 0), up to 56 harmonics and amplitudes up to 2^32; every noise buffer of at most 2^16; every mathematical library whose sinf and cosf are within 2^-22 on [-8, 8] (and 2^-20 up to 2^26 for whole programs); every program of calls of the entry points", "why_tests_cant": "The gain of a band divides by the measured power of its noise; error bounds for all noise buffers, all spectra and all fundamentals need an argument, since a test samples a few and has no exact reference.", "anchors": ["src/core/mbe_unvoiced_fft.c:571-666", "src/core/mbe_unvoiced_fft.c:668-783"]}
{"id": "C77", "title": "Spectral enhancement in binary32 follows the exact formula up to 2^18 and loses the spectral shape from 2^25", "statement": "For a frame whose amplitudes are at most 2^18 (all zero, or one at least 2^-10), the spectral amplitude enhancement in binary32 yields every amplitude within 1/20 (plus 2^-120) of the exact value, that is the amplitude times the clamped weight times the gain that restores the energy. For amplitudes up to 2^27 it keeps the energy of the spectrum within 1/100000 and hands the energy before enhancement, equally precise, to the adaptive smoothing. Every speech frame of the three decoders has a fundamental and a number of harmonics that meet the hypotheses. In exact arithmetic the factors do not depend on the volume. In binary32 they do: with an amplitude of 2^25 or more the denominator of the weight overflows, every weight is 0, and all harmonics above the lowest eighth receive the factor 1/2 whatever the shape of the spectrum; for twelve equal harmonics of 2^25 the second comes out at less than 3/5 of the first, while the exact formula makes it no smaller.", "quantifier": "every fundamental from 1/32 to 1 and every number of harmonics up to 56 such that no harmonic is within about three degrees of a multiple of half the sampling frequency; all amplitudes in the stated ranges; every mathematical library whose sinf and cosf are within 2^-22 on [-8, 8] and 2^-20 up to 2^26", "why_tests_cant": "The weight divides by the difference of two squares that nearly cancel for some spectra, and the cosines come from a recurrence; the error for all spectra needs an argument. The overflow sets in only at levels that ordinary recordings do not reach.", "anchors": ["src/core/mbelib.c:268-400"]}
{"id": "C78", "title": "Adaptive smoothing in binary32 follows the exact formulas, and the local energy does not drift", "statement": "For a frame with amplitudes up to 2^40, the adaptive smoothing in binary32 turns every amplitude a into a*T/max(T, sum of the amplitudes) to a fifty-thousandth, where T is the new (positive) amplitude limit, and afterwards the sum of the amplitudes exceeds T by at most a forty-thousandth. The new local energy is max(10000, 0.95 E + 0.05 R) to 3e-7, where 75000 stands in for E below 10000 and R is the energy of the frame. A band whose amplitude exceeds the voicing limit of that local energy by more than 1e-5 is declared voiced; one below it by more than 1e-5 keeps its decision; the limit is that of an error rate within 1e-9 of the recorded one. In every history of IMBE calls with frame energies up to B the local energy stays within B/50000 of the exact recursion over the energies of the decoded amplitudes.", "quantifier": "every frame with at most 56 harmonics and amplitudes in [0, 2^40], every previous local energy up to 2^100, every error rate and count, every pending hand-off; for the history, every length and every sequence of payloads and error counts; for the voicing limit, every expf within the fraction 2^-20 on [0, 4]", "why_tests_cant": "A recursion over an unbounded number of frames could accumulate rounding errors; comparing finitely many runs with a reference cannot exclude that, nor a threshold that is off for some error rates.", "anchors": ["src/core/mbe_adaptive.c:177-266"]}
{"id": "C79", "title": "From the received bits to the amplitudes that are played, in binary32", "statement": "After any number of IMBE frames with at most 20 reported errors each, the amplitudes that the last frame is synthesised with are, in binary32, between 59 and 167 percent of what exact arithmetic would play: the exact log amplitudes of the whole history (C69), enhanced by the exact formulas and limited to the current threshold, which is then at least 20480. Given the decoded amplitudes alone the factor is within a ninth; over the real numbers it is an equality. The enhancement is stable in itself: spectra whose log amplitudes differ by at most 0.051, with differences that agree to 0.06, are enhanced to amplitudes between 0.816 and 1.225 times each other.", "quantifier": "every history of IMBE receptions of any length from a new decoder, with every payload of 88 bits and every error count up to 20, whose last frame has exact log amplitudes in [-15.9, 17.9] and one of them at least -9.9; every libm with the stated accuracy; for the step without the decoder, every frame with amplitudes up to 2^18 and every threshold of at least 1", "why_tests_cant": "The chain decode, predict, enhance, limit has feedback through the prediction, so its rounding errors could grow with the number of frames and depend on all the received bits; sampling frames cannot bound them.", "anchors": ["src/imbe/imbe7200x4400.c:638-647", "src/core/mbelib.c:268-400", "src/core/mbe_adaptive.c:177-266"]}
{"id": "C80", "title": "The vector build in binary32: synthesis within the same bounds as the scalar build", "statement": "With SSE2 or NEON code the voiced synthesis, the power sums of the unvoiced bands and the transforms evaluate their expressions in another order, so the bits of the samples differ from those of the scalar build. Still every frame meets the same description: its samples are the clipped sum of the exact contributions of the voiced harmonics and of the overlap-add of two unvoiced blocks, within 1/140 of the sum of the voiced amplitudes (as C75); its unvoiced block is the frame's noise shaped to 146.17696 Ml per unvoiced band within 1/10000 (as C76); the power of a band is within 2^-14 of the exact power; the phases stay bounded in runs of any length. From the same parameter sets both builds leave the same bits in all fields except the unvoiced block, and their samples differ by at most twice that bound plus the difference of the overlap-adds of the two unvoiced blocks.", "quantifier": "both instruction sets; every pair of parameter sets with 9 to 56 harmonics, a fundamental between 1/64 and 5/8 (or 0), amplitudes up to 2^32, bounded phases and noise; every mathematical library whose sinf and cosf are as accurate as in C75 and C76", "why_tests_cant": "The two builds are not bit-identical (C55 has witnesses), so a test can only compare against a tolerance on sampled frames; that the tolerance is never exceeded, for all amplitudes, phases, noise buffers and band limits, is an error analysis of both evaluation orders.", "anchors": ["src/core/mbelib.c:126-158", "src/core/mbe_unvoiced_fft.c:571-666", "src/core/mbe_unvoiced_fft.c:668-783", "src/core/mbelib.c:922-1061"]}
{"id": "C81", "title": "Spectral enhancement of the vector build in binary32: same accuracy as the scalar build", "statement": "With SSE2 or NEON code the two energies and the restored energy are summed in four lanes, which rounds differently. For amplitudes up to 2^18 every enhanced amplitude is still within 1/20 (plus 2^-120) of the exact value; for amplitudes up to 2^27 the energy of the spectrum is kept within 1/100000 and the energy handed to the adaptive smoothing is equally precise; with an amplitude of 2^25 or more all harmonics above the lowest eighth receive the factor 1/2, as in the scalar build. The two builds differ by at most 1/10 of the exact amplitude in every band and by 1/50000 in energy. The amplitudes that a speech frame is synthesised with are within 1/9 of the exact played amplitudes.", "quantifier": "both instruction sets; every fundamental from 1/32 to 1 and every number of harmonics up to 56 such that no harmonic is within about three degrees of a multiple of half the sampling frequency; all amplitudes in the stated ranges; every mathematical library as in C77", "why_tests_cant": "The lanes change which partial sums are rounded, and the difference is then divided by a quantity that nearly cancels for some spectra; tests see sampled spectra only, and the vector build is normally compared with itself.", "anchors": ["src/core/mbelib.c:297-367", "src/core/mbelib.c:397-460", "src/core/mbelib.c:466-506"]}
{"id": "C82", "title": "Builds with and without vector code decode bit for bit alike", "statement": "Vector code changes only what is heard. Run the same calls on a build with SSE2 or NEON code and on one without, from the same state: after every call the decoded parameter sets agree bit for bit (fundamental, number of bands, gain, log amplitudes, amplitude and voicing of every band of the last decoded set, error rate and counters, repeat count, amplitude limit, tone phases, comfort noise generator, generated noise, phases without the noise), and so do the status strings; only enhanced amplitudes, noisy phases, local energy and the unvoiced block may differ. Frames that sound as comfort noise or as a valid tone have identical samples. On a new decoder both builds run without undefined behaviour for up to 357000 valid calls. Hence the accuracy of the decoded parameters (C69, C72) and of the played amplitudes (C79) holds for the vector build too.", "quantifier": "both instruction sets; all lists of public calls, any arithmetic (samples and state rounded in any way) for the agreement; all mathematical libraries meeting the stated accuracy for definedness and the accuracy statements", "why_tests_cant": "A rounding difference that leaked from the synthesis back into the decoder would show only after frames at which a comparison flips; tests compare a few recordings with tolerances and never two builds bit for bit over all histories.", "anchors": ["src/imbe/imbe7200x4400.c:581-649", "src/ambe/ambe3600x2450.c:620-730", "src/ambe/ambe3600x2400.c:600-680", "src/core/mbelib.c:272-506", "src/core/mbelib.c:894-1062"]}
{"id": "C83", "title": "From the received bits to the played amplitudes, AMBE", "statement": "Take a new decoder and any sequence of AMBE 3600x2400 and 3600x2450 frames (voice, tones, erasures, repeats, noise, mixed), each with at most 20 errors, ending with a voice frame. If exact arithmetic over the whole history puts the log amplitudes of that frame between -15.9 and 17.8 and one amplitude at 1/900 or more, then the number of bands is the exact one, the amplitude limit is at least the initial 20480, and every amplitude that the frame is synthesised with is a number between 54 and 183 percent of the one that exact enhancement and limitation of the exact amplitudes give (up to 2^-100). The bound does not grow with the length of the history. The same holds with the SSE2 and NEON code.", "quantifier": "all histories of AMBE data calls of both rates with at most 20 errors each that end in a voice frame; both starting states; all mathematical libraries meeting the stated accuracy; for the vector build up to 357000 calls", "why_tests_cant": "Tests compare decoded parameters of single frames or samples of a few recordings; they cannot show that errors of log-domain prediction, gain tracking, unvoiced scaling, enhancement and limitation stay bounded together for every history.", "anchors": ["src/ambe/ambe3600x2450.c:620-730", "src/ambe/ambe3600x2400.c:600-680", "src/core/mbelib.c:272-506", "src/core/mbe_adaptive.c:177-266"]}
{"id": "C84", "title": "Every block that a vector build delivers", "statement": "On a build with the SSE2 or NEON code, run any sequence of documented calls with at most 20 errors each on a new decoder, and let the decoded amplitudes of the default build stay moderate (each between 0 and 2^27, and either all zero or the largest at least 2^-10). Then both builds run to the end with the same status strings, and every block delivered by the vector build consists of 160 numbers, converts to 16 bits on every processor without undefined behaviour and with magnitude at most 31128, and is comfort noise, a tone, or the clipped sum of the exact contributions of the voiced harmonics and of the overlap-add of two blocks of shaped noise, with an explicit error bound. For IMBE and AMBE histories the condition follows from the exact amplitudes of the received bits.", "quantifier": "all programs of up to 357000 documented calls with at most 20 errors each, both instruction sets, all mathematical libraries meeting the stated accuracy, failed allocations included", "why_tests_cant": "Tests compare the two builds on a few recordings with a tolerance; a NaN or overflow that only some history, spectrum or instruction set produces is not reached.", "anchors": ["src/core/mbelib.c:126-158", "src/core/mbelib.c:272-506", "src/core/mbelib.c:894-1252", "src/core/mbe_unvoiced_fft.c:571-783"]}

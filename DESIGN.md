# Formal model of mbelib-neo in Lean 4

Everything is under `lean/Verif`. `/repo` is read as text only; nothing is built or run.

* `properties.jsonl` — the claims, in English, with anchors in the source
* `MANIFEST.json` — the theorems of each claim (generated by `tools/gen_manifest.py`, notes in `tools/status.json`)
* `AXIOMS.md` — the axioms of each theorem (generated by `tools/axioms.py`)
* `seeded/LOG.jsonl` — the wrong programs that were tried against the theorems
* `tools/gen_tables.py` — copies tables from `/repo`; `tools/coverage.py` — lists the lines of `/repo` no model definition cites

## Layout

| directory | content |
|---|---|
| `Verif/Basic.lean` | execution monad with undefined behaviour as an outcome, loops, bounds-checked arrays, Hoare-style rules |
| `Verif/Arr.lean` | arrays of fixed length inside the parameter structures |
| `Verif/Gen/*.lean` | tables copied mechanically from `/repo` |
| `Verif/Num/*.lean` | arithmetic interface, IEEE-754 arithmetic over the rationals, exact real arithmetic, intervals |
| `Verif/Model/*.lean` | the C code, function by function, each definition citing file and lines |
| `Verif/Spec/*.lean` | specifications: codes, frames, parameters, histories, programs, noise, smoothing, prediction, texts |
| `Verif/Lemmas/*.lean` | helper lemmas |
| `Verif/Props/*.lean` | the property theorems `C01_...`, each followed by an `example` that meets its hypotheses |

## How C is represented

* **Undefined behaviour is an outcome.** A C function is `Exec α = Except UB α`. Out-of-bounds read, out-of-bounds write, read of an uninitialised local, out-of-range float-to-int conversion and signed overflow are distinct errors. "Defined" means that the result is `.ok`.
* **Arrays.** Bit planes and payloads are functions `Nat → Int` whose accesses carry the C bounds. Arrays in structures are `Arr n α = Fin n → α`; a local array that is not initialised is `Arr n (Option α)`.
* **`char` bit planes** are integers; `& 1` is `% 2`. Theorems that need 0/1 bits say so (`Bits`).
* **Arithmetic is a parameter** (`Arith F`) with the binary32 and binary64 operations, comparisons, conversions and libm functions used by the code. Three kinds of theorem:
  * for every arithmetic — control flow, memory safety, which values are used where;
  * IEEE (`IEEE m`) — round to nearest even, overflow, subnormals, NaN, signed zero; the libm functions `cos sin exp2 log2 exp` are an arbitrary record `m`. Seven hypotheses are ever made about them, `Exp2Acc m`: `exp2f` is within 0.1 % on the range AMBE 3600x2400 uses, and, for C65, C69, C72, C79, C83, `C84_imbe`, `C84_ambe` and the accuracy part of C82, `LibmAcc m`: `cosf` within 2^-16 absolute and `exp2f` within 2^-16 relative on the ranges needed, and for the AMBE part of C65, C72, C83 (and `C82_ambe_track`, `C84_ambe`) `Log2Acc m`: `log2f` within 2^-16 on [1, 56]; for C66's waveform, C68, C71, C76, C77, C79 to C81, C83, C84 and `C82_imbe_played`, `SinAcc m`: `sinf` within 2^-22 absolute on [-8, 8]; for C68, C71, C76, C77, C79 to C81, C83, C84 and `C82_imbe_played` only, `CosAcc m`: the same of `cosf`; for `C65_finite_partial`, `C65_finite_imbe_partial`, `C65_finite_ambe_partial`, C75, C76, C77, C79 to C81, C83, C84 and `C82_imbe_played` only, `TrigAcc m`: `cosf` and `sinf` within 2^-20 absolute up to 2^26, and exact at zero; for `C78_voicing` only, `ExpAcc m`: `expf` within 2^-20 relative on [0, 4]. All are shown satisfiable;
  * exact (`ℝ`) — real operations and functions. Literals keep their decimal value, except five that stand for irrational numbers: `M_PI` is π, the FFT constants −0.7071067811865475 and −1.414213562373095 are −√½ and −√2, and `M_SQRT1_2` and `M_SQRT2` are √½ and √2 (`realLit`; C62 and C70 show that the binary32 constants are the nearest to these).
* **Thread-local state** (`Tls`) is a record passed to and returned from the functions that use it: three generators, cosine tables, plan, hand-off of RM0.
* **What a call leaves open** (`Env`): the two FFT transforms (arbitrary functions on 256 samples; C61 shows that the code computes such functions, `Runs E` says that `E` contains them, and C64, `C65_finite_partial`, `C65_finite_imbe_partial`, `C65_finite_ambe_partial`, C68, C76 and C75's theorems about histories use it), whether the plan can be allocated, and `lax`: whether the read `log2Ml[57]`, one past the end, is an error or yields the neighbouring field. Theorems about whole programs are stated for both.
* `cur_mp`, `prev_mp`, `prev_mp_enhanced` are distinct objects, as the API requires. Null arguments are not modelled.
* **Calls are atomic** for threads (C37): the code has no mutable statics that are shared, so an interleaving is a sequence of calls.
* **Memory blocks** (C58) have a model of their own, `Model/Heap.lean`: requests, refusals, live blocks.

## Build configurations

* Default: SIMD off (also in pffft: `PFFFT_SIMD_DISABLE`), fast-math off, no FMA contraction. All claims but C55, C56, C70, C71, C80 to C82, C84 and `C83_ambe_vector` are about this one.
* `MBELIB_ENABLE_SIMD`: `Model/Simd.lean`, for SSE2 and NEON, and `Model/FftVec.lean` for the transforms, which then use vectors of four floats (`RunsV E` in place of `Runs E`; C70 shows that in exact arithmetic they are the same). `vmlaq_f32` is taken as unfused; the reciprocal-estimate division of 32-bit ARM is not modelled.
* `MBELIB_ENABLE_FAST_MATH` is not modelled. `MBELIB_STRICT_ORDER` has no effect on the code that is modelled.

## Modelled and not modelled

Modelled: all functions of `src/ecc`, `src/imbe`, `src/ambe`, `src/core/mbelib.c`, `src/core/mbe_adaptive.c`, `src/core/mbe_unvoiced_fft.c`, and of `src/external/pffft/pffft.c` the allocation and the real transform of 256 points, scalar (`Model/Fft.lean`) and on vectors (`Model/FftVec.lean`). `tools/coverage.py` lists the lines that no definition cites; they are function headers, prototypes, `pffft_bin_re/im/set` and the scalar tail of `mbe_add_voiced_block4` (both unreachable), and `mbe_sincosf` (taken as `sinf` and `cosf`).

Not modelled: the parts of `pffft.c` that an ordered real transform of 256 points never reaches (other radices, complex code, convolution; reaching one would be the outcome `notModelled`) and `fftpack.c`; the build system; tests, tools, benches and examples; output through `stderr` beyond the text itself; the memory model of threads below the level of calls.

Simplifications are noted where they occur. The larger ones: `strtol` on a digit string is its value; the frame arrays are updated functionally; the local sample buffer of a 16-bit call has arbitrary old contents; allocation failure inside a program (`Env.alloc`) is constant over a program.

## Approach per property

| id | how proved |
|---|---|
| C01, C02 | the syndrome is linear; one kernel evaluation over all 2048 patterns of weight ≤ 3 is lifted to all words by linearity; uniqueness by counting syndromes |
| C03 | linear syndrome, 16-entry table |
| C04, C05 | congruence on low bits; explicit formula, witness of the leak |
| C06–C09, C13 | specification encoder; composition of C01–C03 with index bookkeeping |
| C10, C11 | xor twice; linear recurrence bound |
| C12 | permutation for each K, K from IEEE evaluation of all 256 fundamentals |
| C14–C20 | IEEE evaluation for all fundamentals, facts about whole tables by kernel evaluation, Hoare rules |
| C21–C27, C52 | case analysis and induction over histories, for every arithmetic |
| C28, C29 | rounding is monotone and exact on representable values |
| C30–C32, C49 | induction over the streams; linear algebra over bits for xorshift |
| C33, C34 | induction over frames; negation with witness for C34 |
| C35, C36, C38, C42 | equality of two runs; inductive invariants over histories |
| C37 | induction over interleavings |
| C39, C40 | interval bounds on clamped indices; field algebra |
| C41, C43–C46 | exact arithmetic; contraction of the prediction; closed forms of synthesis |
| C47, C51 | layered Hoare rules `OkU` with a set of tolerated errors; histories of public calls |
| C48 | simulation between a run with and a run without caches |
| C50, C57 | text as lists of characters |
| C53, C54 | discrete cosine transforms inverted; linear recurrences |
| C55, C56 | vector loops equal scalar loops by reassociation; the rules of C47 again |
| C58 | table of all outcomes; induction over frames |
| C59 | induction over histories; monotone rounding gives the bound, kernel evaluation of two streams its sharpness |
| C60 | the hand-off followed through all calls; the formulas over ℝ |
| C61 | each pass is a list of stores; one kernel evaluation per shape shows that the addresses are all 256, each once; symbolic execution of setup and passes |
| C62 | invariant: after each pass the blocks hold the transforms of the residue classes of the input (`Stage`), radix-4 step by case analysis on the bin |
| C63 | the same invariant downwards; orthogonality of the roots of unity |
| C64 | C39 composed with C62 and C63 |
| C65 | interval arithmetic is one more instance of `Arith`, proved to enclose the IEEE run; the kernel evaluates the decoder on intervals for eight receptions (IMBE) and eleven (AMBE 2450); NaN propagation by induction over the synthesis loops. The converse bounds every intermediate value of enhancement, smoothing, oscillators, noise, FFT (radix-4 passes: a factor of at most 4096 in all) and tones, and is an invariant over programs; for IMBE C69, and for AMBE C72, turn the condition on amplitudes into one on the exact log amplitudes, that is, on the received bits |
| C66 | the rounding errors of phase step, angle, sine, gain and product are added up against the real cosine of the table frequency; state and status by computing the call |
| C67 | two runs from states equal up to the tone phases, through every function of both AMBE decoders, lifted to histories by induction |
| C68 | the IEEE and the real run of the same list of stores, side by side: magnitude and error bounds per radix-4 pass, with the error of each twiddle factor; then C62, C63 |
| C69 | the IEEE and the real decoder side by side: error of the residual, of the predicted differences (factor 0.7 of the previous difference error plus a constant), of the mean; induction over the frames with the repeat decisions of C21 |
| C70 | closed forms of every step on vectors (`VecPass`, `VecWhole`, `VecOrder`: a permutation of the 256 positions, proved by arithmetic on indices); per lane the passes are the scalar transform of 64 points, so the stage lemma of C62 applies; the combining step is the radix-4 identity of the transform (`dft_quads`), lane by lane; the ordered layout determines the array, hence both builds agree |
| C71 | the relation `Near` of C68 per lane, with the same constants for the combining steps as for a pass |
| C72 | as C69, for the two AMBE decoders: the gain contracts with factor 0.5, the difference errors with 0.65; one case per kind of frame, with the repeat counter of C23. Voicing: the bands of 2450 agree by evaluation of both tables; for 2400 an integer bound on `log2 l` (from `l^65536`) shows no harmonic of any of the 126 fundamentals is within 1/42000 of the thresholds 2, 4, 6 that matter |
| C73 | two runs side by side, related by equality but for the three error figures; every function of decoding, smoothing and synthesis is shown to read the figures only through tests whose outcome the limits fix. The error figures at frame level come from C07 and C09; an error-free reception keeps the rate at exactly 0 |
| C74 | the analysis of C53 run on both frames: equal frames have equal log amplitudes, hence equal quantiser values; every quantiser and table is injective where stated. Every bit of an IMBE payload is in exactly one row of the bit allocation. Every voicing band up to the band of the highest harmonic contains a harmonic, because the fundamental is below a band width |
| C75 | the relation `Near` of C68 along the code of a frame: phases (with the number of full turns that binary32 removed), amplitudes, the rotation recurrences (the error of an angle sum, `Rot`), window, accumulation in order, overlap-add, clipping. The exact description is that of C46 with its two thresholds widened. The phase bound is an invariant, since the stored phase is reduced in each frame |
| C76 | `Near` for the power of a band, the root and the quotient of its gain; `C68`'s bounds for the two transforms, the error of the second relative to the size of the scaled spectrum, which the gain determines; limits of the bands by monotonicity of rounding. The level is Parseval's identity over the bands. For histories the description of the stored block is part of the invariant of C65 |
| C77 | relative errors along the code: the cosines by rotation (`Rot`), the two sums, the difference of squares (bounded below because no harmonic is near a multiple of half the sampling frequency), two roots for the fourth root, clamping, the common gain. The exact value is that of C43. For loud frames a lower bound of the denominator |
| C78 | relative precision of products, quotients and roots (`Prec`) along the code of the smoothing; for the local energy a contraction by 0.95 per frame, so that the error of a step is forgotten instead of adding up. Both energies are at least 10000 after the first step, so the default for small energies never separates them |
| C79 | the enhancement as a function of the spectrum changes by at most ν^10 if every amplitude changes by at most ν^2 (`enhanced_stable`: weights are fourth roots of ratios, factors and gain follow; the scale drops out by C77_scale), and the limitation by at most the ratio of the bounds (`limitTo_near`). Composed with C69 (bits to log amplitudes), C77 and C78. The invariant `ImbePlay` supplies the fundamental and the threshold for every history |
| C80 | the proofs of C75 and C76 take the oscillator (`OscNear`), the power sum (`PowerNear`) and the transforms (`FftNear`) as parameters; the vector code is shown to meet them: the oscillator is the scalar one with the product in another order, the power sum is run in parallel with exact arithmetic, where C55 equates it with the scalar sum (relation `SN`: error in units of additions and of terms), the transforms are those of C71. The exact contributions depend on the parameter sets only, hence the comparison of the builds |
| C81 | the proofs of C77 take the two sums as parameters (`enhanceWith`, `SumsVal`, `SumsNear`); the sums in lanes are shown to meet the same bounds (`LanesAcc`: each lane is a sum of every fourth term, and adding the lanes costs two more roundings). The rest of the function is the same text, the final scaling in another order of the factors (`spectralAmpEnhanceSimd_with`) |
| C82 | a relation between the states of the two builds (`StateEq`: equal in all members but those that only the synthesis reads), kept by every call (`Both`: the relation holds whenever both runs are defined). The decoders read nothing that may differ; the synthesis is followed far enough to see that what differs stays in the enhanced set. Only `lax` must be the same in both environments. C69, C72 and C79 are then transported (`hist_pair`) |
| C83 | as C79, with C72 in place of C69. What a voice frame is synthesised from is identified with the decoded set (`voice_spoken`, `voiceSimd_spoken`), the decoded amplitudes are written as 2^x times the exact ones with an error of 0.0011 for the factor of unvoiced bands (`ambe_decoded_near`), and the invariant `AmbePlay` (limit at least 20480, at most 20 errors in all three sets) is kept by every kind of frame |
| C84 | the invariant `VecSt` (what the vector kernels need of the three sets) over all calls of a vector build (`runApi_vec`), which is that of C65 and C76 with the sums of C80 and C81. An erasure that is repeated makes its nine amplitudes NaN in the vector enhancement too (`C84_erasure_latent_nan`); unvoiced bands and the missing fundamental keep them inaudible. The amplitude condition is moved from the default build by C82 (`C84_both`), and from the received bits by C69 and C72 (`C84_imbe`, `C84_ambe`) |

## Where the code disagrees with a claim

Each is a theorem (`_partial` theorems hold the part of the claim that is true).

* **C05** `mbe_checkGolayBlock` keeps bits above bit 22 of its argument although the comment says they are ignored.
* **C16–C18** The prediction reads `prev_mp->log2Ml[57]`, one past the end, exactly when the previous frame has 56 harmonics and the current one does not have 23 or 46.
* **C22, C24** The fifth consecutive IMBE repeat is not muted: it plays the default model.
* **C65** An error-free IMBE frame received eight times in a row after initialisation turns every sample into a NaN: harmonic 4 reaches 2^33, `Rm0 * Rm0` in `mbe_spectralAmpEnhance` overflows, the weight becomes inf/inf. The same happens with an error-free AMBE 3600x2450 frame at the eleventh reception (42 voiced harmonics, `Rm0` above 2^64). The portable 16-bit conversion of a NaN is undefined behaviour. Conversely all samples are finite as long as the decoded amplitudes stay below 2^27 and are all zero or not all below 2^-10 (`C65_finite_partial`).
* **C77** Enhancement depends on the volume: from an amplitude of 2^25 on, `w0 * Rm0 * (R2m0 - R2m1)` overflows to infinity, every weight is 0, and all harmonics above the lowest eighth are halved relative to it. Between 2^18 and 2^25 only the energy is proved to be right.
* **C34** D-STAR tone frames do not produce their tone: the samples are overwritten by comfort noise and the state is reset.
* **C42** `amplitudeThreshold` overflows `int` after 377149 frames with one error each.
* **C58** `pffft_new_setup` does not check its two requests for memory; the plan of a thread is never released.

## Other observations

* `mbe_golay2312` counts up to 12 errors when its input chars are not 0 or 1.
* The AMBE error total counts flips of the overall check bit only when their number is odd (C09).
* AMBE: `c0 >= 4` cannot happen on the frame path; `prev.repeatCount` never reaches 4; tones do not interrupt a streak of repeats (C23); a 2400 tone or silence frame with many errors is marked `R` though the output is comfort noise; after a change of codec the mark `M` and actual muting may differ.
* AMBE 2400 ignores payload bit 24, `*errs`, and odd rows of the last HOC table; `bad == 2` cannot happen. IMBE ignores bit 87 (C52).
* AMBE 2400 tables have equal entries: gains 62 and 63, rows 196 and 198 and rows 295 and 341 of the first vector, and first coefficients of two HOC tables (C74). The voicing table of AMBE 2450 has 13 different rows among 32; the last band is without harmonic for 15 of the fundamentals.
* AMBE 2450 silence has `L * w0` above π; the table of L is ⌊0.4627 / f0⌋.
* IMBE never renews `log2Ml[0]`; a value left by AMBE stays (C45, C54). Worst-case IMBE streams reach 2^211, beyond binary32 (C45).
* The smoothing threshold can be zero or negative; an infinite amplitude forces voicing in a clean frame (C41); NaN in RM0 makes the local energy NaN. A stale RM0 can be handed over only by direct calls of `mbe_spectralAmpEnhance`; process calls never leave one (C60). `mbe_requiresAdaptiveSmoothing` returns 0 for frames that smoothing changes (error rate between 0.5% and 1.25%): C41_required_differs; no caller in the library uses it.
* `mbe_synthesizeSpeechf` with a huge or NaN fundamental converts out of the range of `int` (C47). Erasure followed by a 2450 repeat divides 0 by 0 in the enhancement: nine NaN amplitudes that stay inaudible (`C65_erasure_latent_nan`).
* The synthesis window is not symmetric: 0.300 occurs twice on the falling side. The smallest overlap denominator is 0.4804. The Nyquist bin is never excited.
* The number of unvoiced bands counts band 0, so even a fully voiced frame has random phase in its upper harmonics (C46).
* NaN passes the soft clip. Conversion of NaN to 16 bits is undefined in the scalar code, gives −31128 with SSE2 and 0 with NEON (C28, C55).
* With vectors, finite amplitudes of 2^127 and more give NaN where the scalar code gives 0 (C55); sums may differ in the last bit.
* `mbe_printVersion` writes up to 32 bytes whatever the size of the buffer (C50). The zero test of `mbe_xorshift32` never fires (C49).
* `radb4_ps` forms the pointer `cc - 1 + 4*k` (pffft.c:869), which for `k = 0` points before the block; only the accesses through it, all in bounds, are modelled (C61).
* The IMBE range check on L never fires (C14). Repeat frames restore the previous error rate and replay the same noise (C32).

## Trusted base

* The Lean 4.33.0 kernel.
* The axioms `propext`, `Classical.choice`, `Quot.sound`; no others. `AXIOMS.md` lists them per theorem.
* The transcription of the C code in `Verif/Model`, each definition with its lines; the extraction of tables in `Verif/Gen`.
* The reading of C: integer widths of the usual ABIs, `char` signed, IEEE-754 binary32/binary64 with `FLT_EVAL_METHOD` 0.

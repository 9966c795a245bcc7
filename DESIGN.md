# BlipKit formal model: design and results

Subject: detomon/BlipKit 0.17.6, C sources in `/repo/src`.  The model is written in Lean 4 from the
text of the sources; the C code is never built or run.

## Layout

* `lean/Verif/Model/*.lean`: model of the code, function by function.  Every definition cites file
  and lines.  Simplifications are stated there.
* `lean/Verif/Spec/*.lean`: small, independent statements of what the user expects and of which calls
  are legal (no use of the model's internal helpers).
* `lean/Verif/Lemmas/*.lean`: helper lemmas and invariants.
* `lean/Verif/Props/*.lean`: the property theorems, named `Cnn_...`, each with an `example` that shows a
  non-trivial instance of its hypotheses.
* `properties.jsonl`: the properties in words.  `MANIFEST.json`: theorems and status per property.
* `seeded/LOG.jsonl`: faults put into a copy of the model, and the theorems that failed then.

## Modelling conventions

* C integers are mathematical `Int`s plus an explicit range.  Unsigned 32-bit arithmetic is reduced
  modulo 2^32.  Signed 32-bit arithmetic is *checked*: the model functions live in
  `C α = Except Fault α`, and an overflow, an out-of-range array index, a division by zero, a NULL
  dereference, a use after free, a wrong free or an endless loop is a distinct outcome (`Fault`), never
  assumed away.  "No undefined behaviour" is therefore a theorem (`f x = .ok _`), not a convention.
* `>>` on negative signed values is arithmetic (`/ 2^k`, floor), C division is `Int.tdiv`, narrowing
  conversions reduce modulo the width (two's complement), `<<` of a negative value is multiplication
  and faults if the result does not fit.  These are the documented behaviours of GCC and Clang.
* Loops are structural recursion where a bound is evident, otherwise fuel with a theorem that the
  fuel suffices (termination is then a theorem; running out of fuel is the fault `endless`).
* Pointers into linked lists are natural-number ids and the heap is a function from ids to records, so
  aliasing and dangling pointers are expressible.
* Callbacks supplied by the user are universally quantified functions on the part of the state the
  property lets them touch.
* Where the accumulators of a channel can overflow (C11), the buffer model takes a parameter `chk`:
  with `chk = true` the overflow is a fault, with `chk = false` it wraps.  C05 is proved for both; C39
  and C40 are for `chk = false`, since freedom from that overflow is the business of C11.

If the code does not satisfy a property, the negation is proved with a concrete witness (theorem name
contains `_refuted`), and what does hold is proved as `..._partial`, with hypotheses that exclude just
the witnesses' cause.  The full statement stays in `properties.jsonl`.

## Trusted base

* The Lean kernel, and the axioms `propext`, `Classical.choice`, `Quot.sound` (listed per theorem
  below).  No `sorry`, no own axioms, no `native_decide`, no `bv_decide`.
* The reading of the C text: types from `BKBase.h` on an LP64 target (int is 32 bit, `intptr_t` is 64
  bit), little endian unless a statement says otherwise.
* malloc is modelled as always succeeding; stdio files are byte arrays with a cursor.

### Parts of the code that are modelled

| File | Model | Modelled | Not modelled |
|------|-------|----------|--------------|
| BKBase.c | Status | `BKStatusGetName` with its table | |
| BKTime.h | Time | both variants (struct and 64-bit integer) | `BKTimeFromSeconds` (floating point; in BKContext.h) |
| BKObject.c | Object | init, alloc, dispose, flags | the attribute dispatchers `BKSetAttr` … (one indirect call each) |
| BKBuffer.c/h | Buffer, Kernels | all functions, both step kernels as tables | |
| BKInterpolation.c/h | Interp | all functions | |
| BKTone.c | Tone | both lookups with their tables | |
| BKSequence.c | Sequence, SeqCopy, SeqPlay | creation, copying, phases, steps, values of both kinds; binding states to sequences | – |
| BKInstrument.c | Instrument, Copy | sequences, states, list of states, detach, dispose, events, copying | getters |
| BKClock.c | Divider, Links, World | clocks, dividers, groups, lists, disposal | init/alloc boilerplate |
| BKContext.c | Context, Tempo, GenTo, Links, World | attach/detach of units and clocks, run, end, read, generate, generate to a time, clocks, reset, dispose, init clamping | the default period of the master clock (floating point) |
| BKUnit.c | Unit | all attributes, all seven waveforms, sample playback, ranges, release, data binding, reset, clear | |
| BKTrack.c | Track, Band | notes, volume, panning, effects, arpeggio, instruments, ticks, attributes, data, attach, clear, reset | |
| BKData.c | Convert, DataState, DataMem, DataAttr, Reduce, Copy, Wave | conversion of raw data, normalising, users of data, ownership of memory, attributes, converting to fewer bits, copying, loading WAVE | the value of `rand` (any value), loading raw files |
| BKWaveFileReader.c, BKWaveFileWriter.c, BKWaveFile_internal.h | Wave | header and frames, both endiannesses | `BKCheckFile` (`fcntl`) |

Outside: everything that is not in `src/` (examples, tools, SDL).

## Properties

For each property: what is modelled and how it is proved, what came out, the file in `Props/`, and
the axioms used by its theorems (p = propext, c = Classical.choice, q = Quot.sound, – = none).

### C01  Time arithmetic is the same on 32-bit and 64-bit builds

* Model and method: Both variants of BKTime.h (`Model/Time`). Refinement relation between struct and integer; one simulation theorem per operation.
* Result: **partial**. Addition, subtraction, comparison and reading agree for all times whose result fits. Period arguments near 2^32 (add), above 2^31 (subtract, greater) differ between the builds; negations proved with witnesses.
* Theorems (`Props/Time.lean`): `C01_add` (pq), `C01_sub` (pq), `C01_addF_partial` (pq), `C01_addF_refuted` (p), `C01_subF_partial` (pq), `C01_subF_refuted` (pq), `C01_compare` (pcq), `C01_lessF` (pcq), `C01_greaterF_partial` (pcq), `C01_greaterF_refuted` (p), `C01_read` (pq), `C01_toPeriod` (pq)

### C02  BKTimeMake denotes the requested sample count

* Model and method: `BKTimeMake` of both builds with checked multiplication. Direct proof; iff theorem for the threshold (2048 samples).
* Result: **partial**. Violated on 64-bit builds: overflow exactly from 2048 samples on (iff theorem). Holds on 32-bit builds for every sample count.
* Theorems (`Props/Time.lean`): `C02_refuted` (–), `C02_wrapped_refuted` (–), `C02_make64_partial` (pq), `C02_make64_ok_iff` (pq), `C02_make32` (pcq)

### C03  Status names are looked up safely for every code

* Model and method: `BKStatusGetName` with bounds-checked table access (`Model/Status`). Complete classification of 32-bit arguments.
* Result: **partial**. Violated: 0x1000 reads outside the table, 0xFFFF9000 yields NULL. All documented codes are right; complete iff classification of the safe 32-bit values is proved.
* Theorems (`Props/Status.lean`): `C03_refuted` (p), `C03_null_refuted` (p), `C03_documented_partial` (p), `C03_safe_iff` (pcq)

### C04  Objects are disposed exactly once

* Model and method: Object heap with flags and a trace of dispose calls (`Model/Object`). Induction over sequences of calls.
* Result: **proved**. For every sequence of calls without memory error by the caller. The count is exact including objects made again while they exist, whose first disposal is lost (C04_limits). The dispose functions themselves are opaque.
* Theorems (`Props/Object.lean`): `C04_hooks` (pq), `C04_frees` (pcq), `C04_no_effect` (pq), `C04_disposable` (pcq), `C04_limits` (p)

### C05  Channel buffers are memory safe for any use

* Model and method: Buffer state with bounds-checked array (`Model/Buffer`). Invariant over sequences of calls.
* Result: **proved**. Arbitrary call sequences, any pulse times and amplitudes, checked and wrapping arithmetic; reads of at most 2^32-1 frames.
* Theorems (`Props/Buffer.lean`): `C05_memory_safe` (pcq), `C05_memory_safe_checked` (pcq), `C05_read_count` (pcq)

### C06  Mixing is order independent

* Model and method: Pulses as linear maps on the array; commutation lemma, lifted to permutations.
* Result: **proved**.
* Theorems (`Props/Buffer.lean`): `C06_order_independent` (pcq), `C06_same_audio` (pcq)

### C07  Band-limited steps have exact, phase-independent gain

* Model and method: Sum over the 32 phases of both kernel tables by `decide +kernel` over the whole table, lifted to all pulses.
* Result: **proved**. For the two built-in step kernels.
* Theorems (`Props/Buffer.lean`): `C07_exact_gain` (pcq), `C07_no_dc` (pcq)

### C08  Reading in pieces gives the same audio

* Model and method: Read loop as a fold; splitting lemma, shift of the array, equality of the resulting state.
* Result: **proved**.
* Theorems (`Props/BufferRead.lean`): `C08_chunked_read` (pcq), `C08_any_division` (pcq)

### C09  Loud signals saturate instead of wrapping

* Model and method: Bit trick of the clipping characterised for all 32-bit values; induction over the read loop.
* Result: **proved**. Exact accumulators; an overload gives 32766/32767 or -32768.
* Theorems (`Props/BufferRead.lean`): `C09_saturation` (pcq), `C09_sign` (pcq)

### C10  Silence decays to digital zero

* Model and method: Recurrence a − a/512 studied over the integers; contraction bound counted down to zero.
* Result: **proved**. Zero from the 11776th frame on unconditionally; monotone decay when the output is not overloaded.
* Theorems (`Props/BufferRead.lean`): `C10_silence` (pcq), `C10_monotone` (pcq)

### C11  Mixing never overflows

* Model and method: Same model with overflow as fault; bound by sums of absolute values; witness with three pulses.
* Result: **partial**. Violated: three simultaneous full-scale pulses overflow. Proved: no overflow while 32767 times the sum of absolute amplitudes fits, and for reads while the unfiltered level stays within 2^30-2.
* Theorems (`Props/BufferRead.lean`): `C11_refuted` (pq), `C11_mix_partial` (pcq), `C11_read_partial` (pcq)

### C12  Slides end exactly on time and on target

* Model and method: `Model/Interp`. Closed form of the slide after k steps; division lemmas for truncation.
* Result: **proved**.
* Theorems (`Props/Slide.lean`): `C12_exact_end` (pcq)

### C13  Slides never overshoot

* Model and method: Invariant `Slide.Path`: the rest of the way has the sign of the step.
* Result: **proved**.
* Theorems (`Props/Slide.lean`): `C13_no_overshoot` (pcq)

### C14  Changing a slide midway does not jump

* Model and method: Equality of the fixed-point value before and after the call; bias bounded.
* Result: **partial**. The fixed-point value is kept exactly. The reported value can jump because the rounding bias changes (witness 1 to 4); it moves by at most one unit when both biases are below one unit.
* Theorems (`Props/Slide.lean`): `C14_no_jump_partial` (pcq), `C14_report_partial` (pcq), `C14_report_refuted` (–)

### C15  Reported slide value is the target when finished

* Model and method: Bias below one unit under the stated condition; witness otherwise.
* Result: **partial**. Violated for slow falling slides: a finished slide from 1 to 0 in 1000 steps reports 3. Proved for rising slides and for falling slides of at least 256 raw units per step.
* Theorems (`Props/Slide.lean`): `C15_refuted` (–), `C15_pitch_refuted` (–), `C15_report_partial` (pcq)

### C16  Slide and oscillator arithmetic stays in 32 bits

* Model and method: Invariants `Slide.Inv`, `Osc.Inv` over all sequences of calls; products bounded by division lemmas.
* Result: **partial**. Violated for 2^23 steps, for declared maxima that are powers of two (full-range slide) and for negative maxima. Proved for all other documented arguments and all call sequences.
* Theorems (`Props/Osc, Slide.lean`): `C16_osc_partial` (pcq), `C16_osc_documented` (pcq), `C16_osc_refuted` (–), `C16_slide_partial` (pcq), `C16_documented_range` (pcq), `C16_positive_range` (pcq), `C16_steps_refuted` (–), `C16_range_refuted` (–), `C16_negative_refuted` (–)

### C17  Tremolo/vibrato oscillator is exactly periodic

* Model and method: Closed form of value and phase after k ticks; induction.
* Result: **proved**. Closed form for all ticks from a start at zero; after a change in mid-phase the period is exact from the end of the running phase on.
* Theorems (`Props/Osc.lean`): `C17_wave` (pcq), `C17_quarters` (p), `C17_shape` (pq), `C17_periodic` (pcq)

### C18  Oscillator never leaves its range

* Model and method: Invariant `Osc.Inv` (value in each phase as multiple of the increment).
* Result: **partial**. Internal value always in range. Reported value in range for non-negative amplitudes; refuted for negative ones.
* Theorems (`Props/Osc.lean`): `C18_range` (pcq), `C18_report_partial` (pcq), `C18_report_refuted` (–)

### C19  Note period lookup is total and exact

* Model and method: `Model/Tone`. Table facts by `decide +kernel` over the whole table, lifted to all pitches; products bounded.
* Result: **proved**. Lookup equals the exact integer interpolation for every pitch and rate.
* Theorems (`Props/Tone.lean`): `C19_period_exact` (pcq), `C19_saturates` (pcq), `C19_range` (pcq)

### C20  Higher notes never have longer periods

* Model and method: Monotone tables and monotone interpolation.
* Result: **proved**.
* Theorems (`Props/Tone.lean`): `C20_monotone` (pcq)

### C21  Sample pitch factor is exact at octaves, monotone and total

* Model and method: As C20, for the table of powers of two.
* Result: **proved**.
* Theorems (`Props/Pitch.lean`): `C21_total` (pcq), `C21_monotone` (pcq), `C21_octaves` (pcq)

### C22  An octave up halves the period within a stated error

* Model and method: Table facts over all pairs an octave apart, lifted through the interpolation.
* Result: **proved**. Defect at most 8 sample-rate units and at most a 31st of the period.
* Theorems (`Props/Tone.lean`): `C22_octave` (pcq)

### C23  Simple sequences play the written values

* Model and method: `Model/Sequence`. Closed form of the index after k ticks, by induction.
* Result: **proved**. Held index, once-through index, release from any state and divided sequences in closed form, for every number of ticks.
* Theorems (`Props/Sequence.lean`): `C23_held` (pcq), `C23_once` (pcq), `C23_release` (pcq), `C23_release_at_end` (pq), `C23_divided` (pq)

### C24  Sequence playback never reads outside its values

* Model and method: Invariant over sequences of calls; sizes computed as in C (wrapping) for the refutation.
* Result: **partial**. Violated for value sequences of 2^30 values and envelopes of 2^29 points, where the allocation size wraps. Proved below 2^29 values and 2^28 points; an envelope can then only fail by signed overflow, and not when the value set fits its scale.
* Theorems (`Props/Envelope, Sequence.lean`): `C24_envelope_partial` (pcq), `C24_envelope_overflow` (p), `C24_envelope_usual` (pcq), `C24_envelope_refuted` (pcq), `C24_simple_partial` (pcq), `C24_simple_refuted` (pq)

### C25  Every accepted envelope advances in finite time

* Model and method: The loop over points without steps has fuel; theorem that the number of points suffices.
* Result: **proved**. Every call returns for every envelope that creation accepts, and the rejection of all-zero sustain loops is shown to be needed.
* Theorems (`Props/Envelope.lean`): `C25_terminates` (pcq), `C25_rejected` (pq), `C25_rejection_needed` (pcq)

### C26  Envelopes reach each point exactly and without overshoot

* Model and method: Invariant `OnWay` of the slope; induction over ticks.
* Result: **proved**. For tick counts below 2^31; C26_steps_refuted shows that the claim fails beyond.
* Theorems (`Props/Adsr, Envelope.lean`): `C26_hull` (pcq), `C26_monotone` (pcq), `C26_exact` (pcq), `C26_straight` (pcq), `C26_steps_refuted` (p)

### C27  ADSR envelope timeline

* Model and method: C26 applied to the four points; induction for the hold part.
* Result: **proved**. For tick counts below 2^31; C27_ticks_refuted shows that the claim fails beyond.
* Theorems (`Props/Adsr.lean`): `C27_range` (pcq), `C27_attack` (pcq), `C27_release` (pcq), `C27_ticks_refuted` (p)

### C28  Copied sequences are independent of the original

* Model and method: Heap of point arrays shared by pointer (`Model/SeqCopy`).
* Result: **partial**. Violated: a copied envelope shares its point array with the original (use after free, double free). Proved for plain value sequences.
* Theorems (`Props/SeqCopy.lean`): `C28_refuted` (pcq), `C28_partial` (pcq)

### C29  A rejected sequence leaves the instrument unchanged

* Model and method: `Model/Instrument`. Case analysis of creation before any assignment.
* Result: **proved**.
* Theorems (`Props/Instrument.lean`): `C29_unchanged` (pq), `C29_which` (pcq)

### C30  An instrument mutes its track exactly once per note

* Model and method: Counter of running sequences as invariant (`IState.Cnt`); comparison with each sequence played alone (`IWorld.Alone`).
* Result: **partial**. Violated as stated: a release after the note has ended starts the release part again and notifies again (C30_refuted), and sequences without sustain part end while the note is held (C30_held_refuted). Proved: one notification per attack and per release of a playing note, exactly when every sequence has ended.
* Theorems (`Props/Instrument.lean`): `C30_attack` (pcq), `C30_release` (pcq), `C30_again` (pcq), `C30_refuted` (p), `C30_held_refuted` (p)

### C31  Disposing an instrument detaches every track using it

* Model and method: Representation of the state list (`Links.HRepr`); induction over the loop that unlinks while walking.
* Result: **proved**.
* Theorems (`Props/Instrument.lean`): `C31_detach` (pcq), `C31_dispose` (pcq)

### C32  Attach and detach keep the unit list well formed

* Model and method: List segments over a pointer heap (`Links.Repr`); representation theorem over all histories.
* Result: **proved**.
* Theorems (`Props/Links.lean`): `C32_units` (pq), `C32_refused` (–)

### C33  Attach and detach keep the clock list well formed

* Model and method: As C32, with insertion before a clock.
* Result: **partial**. Violated when the clock given as successor belongs to another context or is the clock itself (witnesses). Proved for every history whose successors are clocks of the same context.
* Theorems (`Props/Links.lean`): `C33_clocks_partial` (pq), `C33_refuted` (–), `C33_self_refuted` (–)

### C34  A refused clock attach has no effect

* Model and method: Equality of the heap before and after.
* Result: **partial**. Violated: an attach refused because of its successor argument leaves the clock marked as owned by the context. Proved that nothing else changes, and nothing at all when refused because already attached.
* Theorems (`Props/Links.lean`): `C34_refuted` (pq), `C34_attach_partial` (p)

### C35  Dividers fire on every d-th tick

* Model and method: `Model/Divider`. Counter modulo d, induction over ticks.
* Result: **proved**. For divider values below 2^31; C35_refuted shows that larger values fire on every tick.
* Theorems (`Props/Divider.lean`): `C35_schedule` (pcq), `C35_every_dth` (pcq), `C35_reset` (pcq), `C35_refuted` (–)

### C36  Disposing a clock always completes and detaches its dividers

* Model and method: Loop with fuel; no fuel suffices (refutation), for all amounts.
* Result: **partial**. Violated: disposing a clock with at least one divider never returns, for any amount of fuel. Proved for a clock without dividers.
* Theorems (`Props/Links.lean`): `C36_refuted` (–), `C36_dispose_partial` (–)

### C37  Clock ticks do not drift

* Model and method: `Model/Context`. Invariant that all clock times are multiples of their period; any schedule of calls.
* Result: **proved**. For any schedule of calls; the clock must not choose its next time itself.
* Theorems (`Props/Clock.lean`): `C37_no_drift` (pcq), `C37_in_step` (pcq)

### C38  Clocks work whenever they are attached

* Model and method: Same model; witnesses by evaluation, positive theorem for attaching at time 0.
* Result: **partial**. Violated: a clock attached while the context is running makes rendering hang or stay silent (C38_refuted_endless, C38_refuted_silent). Attaching before the first rendering or after a reset is proved.
* Theorems (`Props/Clock.lean`): `C38_refuted_endless` (p), `C38_refuted_silent` (p), `C38_attach_partial` (pcq)

### C39  Generate delivers exactly the requested number of frames

* Model and method: Context with units of `Model/Unit` and clocks with arbitrary callbacks; progress measure of the generate loop.
* Result: **partial**. Violated when a context with clocks generates before its first unit is attached (C39_refuted). Proved for all contexts that have a unit from the start, with any clocks, callbacks, waveforms and samples in the limits of UCore.Moderate, up to 2^40 frames.
* Theorems (`Props/Context.lean`): `C39_exact_partial` (pcq), `C39_refuted` (p)

### C40  Audio does not depend on the requested block size

* Model and method: Rendering to e1 and then e2 equals rendering to e2 for every waveform and for samples; lifted through clocks, buffers and read.
* Result: **partial**. Violated without units (C40_refuted). Proved with units for any clocks, callbacks that change units and waveforms: same samples and same state.
* Theorems (`Props/Context.lean`): `C40_block_size_partial` (pcq), `C40_refuted` (p)

### C41  Units can be attached at any time

* Model and method: Time of a unit relative to its context; witnesses.
* Result: **partial**. Violated without clocks: a unit attached after T frames is silent until frame 4096 (C41_refuted, C41_refuted_heard). With clocks it starts where the clocks are.
* Theorems (`Props/Context.lean`): `C41_clocked_partial` (pcq), `C41_refuted` (pcq), `C41_refuted_heard` (p)

### C42  Context parameters are sanitised

* Model and method: Clamping lemmas.
* Result: **proved**.
* Theorems (`Props/Context.lean`): `C42_sanitised` (pq), `C42_fixed` (–)

### C43  Disposing a context releases every unit and clock

* Model and method: `Model/World` (pointer heap with units, clocks, contexts); induction over the disposal loops.
* Result: **partial**. Proved for units. Violated for clocks whose attaching was refused (C43_refuted); proved for the others.
* Theorems (`Props/World.lean`): `C43_units` (pq), `C43_clocks_partial` (pq), `C43_refuted` (–)

### C44  A channel's pulses always add up to the current level

* Model and method: `Model/Unit`: rendering as a list of pulses. Telescoping sum over all histories.
* Result: **partial**. Modulo 65536 for all histories (C44_pulses_add_up_mod); exactly as long as no single step exceeds the 16-bit pulse range. Violated for larger steps, e.g. changing the duty cycle from 8 to 15 at full volume (C44_refuted).
* Theorems (`Props/Unit.lean`): `C44_pulses_add_up_mod` (pcq), `C44_pulses_add_up_partial` (pcq), `C44_refuted` (p)

### C45  Waveform frequency is exact

* Model and method: Closed form of pulse times and table index.
* Result: **proved**.
* Theorems (`Props/Unit.lean`): `C45_pulse_train` (pcq), `C45_division` (pcq)

### C46  Waveform table accesses are in range

* Model and method: Invariant `UCore.Inv` over all sequences of calls.
* Result: **partial**. Violated by a release with immediate jump on a unit that plays a waveform but still has the sustain range of an earlier sample (C46_refuted); proved without such calls.
* Theorems (`Props/Unit.lean`): `C46_in_range_partial` (pcq), `C46_refuted` (p)

### C47  Volume scales and zero volume is silent

* Model and method: Bounds on each product; empty pulse list if muted or at volume 0.
* Result: **proved**.
* Theorems (`Props/Unit.lean`): `C47_within_volume` (pcq), `C47_silence` (pcq), `C47_silent_sample` (pq), `C47_equal_channels` (pcq)

### C48  Noise generator never locks up

* Model and method: Shift register as map on 16-bit numbers; parity argument for the 17-pulse window.
* Result: **partial**. The state is never zero and both levels keep occurring without phase wrap; violated for a phase wrap of 2, which is constant (C48_refuted).
* Theorems (`Props/Noise.lean`): `C48_noise_alive_partial` (pcq), `C48_refuted` (p)

### C49  Noise with phase wrap repeats exactly

* Model and method: Position in the block as state; induction.
* Result: **partial**. The period is w, except that the first block after setting the phase wrap has w-1 pulses (C49_refuted).
* Theorems (`Props/Noise.lean`): `C49_noise_period_partial` (pcq), `C49_refuted` (p)

### C50  Attribute setters clamp and round-trip, errors change nothing

* Model and method: Each attribute: set, then get; frame conditions on failure.
* Result: **partial**. Violated by the value -2147483648 for periods (signed overflow) and by BK_FLAG_RELEASE without sustain range (C50_refuted); proved otherwise.
* Theorems (`Props/UnitAttr.lean`): `C50_set_get_partial` (pcq), `C50_others_kept` (pq), `C50_refused` (pq), `C50_volume_of_all` (pq), `C50_refuted` (–)

### C51  Sample playback stays inside the sample

* Model and method: Invariant on phase, direction and ranges (`UCore.Moderate` states the limits).
* Result: **partial**. Violated in three ways (C51_refuted_turn, C51_refuted_release, C51_refuted_sustain). Proved for all histories whose samples stay within the limits of UCore.Moderate.
* Theorems (`Props/Sample.lean`): `C51_in_bounds_partial` (pcq), `C51_refuted_turn` (p), `C51_refuted_release` (p), `C51_refuted_sustain` (p)

### C52  A non-repeating sample plays once and stops

* Model and method: Closed form of the position after k frames; division theorem for rendering in parts.
* Result: **proved**. For samples within the limits of UCore.Moderate (needed for memory safety, C51).
* Theorems (`Props/Sample.lean`): `C52_plays_once` (pcq), `C52_frames_left` (pcq), `C52_starts_at_first` (pcq), `C52_division` (pcq)

### C53  Track dividers tick every d-th time

* Model and method: `Model/Track`. Counter of `DivState` in closed form, effect of a tick on each part.
* Result: **partial**. Proved for dividers of at least 1: which ticks fire, and that arpeggio, effects and instrument advance exactly on these. Divider values of 0 or less are accepted and stop the effect for good (C53_refuted).
* Theorems (`Props/TrackTick.lean`): `C53_fires_partial` (pcq), `C53_arpeggio_partial` (pcq), `C53_effects_partial` (pcq), `C53_instrument_partial` (pcq), `C53_refuted` (pq)

### C54  Arpeggio cycles through its notes

* Model and method: Invariant `Track.ArpInv` over all calls; closed form of n ticks.
* Result: **partial**. The notes are cycled in order and restart with a new note; violated for the first note after the arpeggio is changed, which is one of the old arpeggio until the divider fires (C54_refuted).
* Theorems (`Props/TrackArp.lean`): `C54_set` (pcq), `C54_cycle_partial` (pcq), `C54_restart` (pq), `C54_refuted` (p)

### C55  Track volume mixing stays in range

* Model and method: Products and clamps bounded; formula of the volume against an independent specification.
* Result: **partial**. Range, silence at volume 0 and the product formula with its rounding are proved for instrument volumes within the documented range; range and silence for every track after any calls (C55_reached_partial). Violated by the triangle wave, which ignores the volume, and by instrument volumes above the maximum (C55_refuted).
* Theorems (`Props/TrackMix, TrackReach.lean`): `C55_range_partial` (pcq), `C55_note_partial` (pcq), `C55_zero_partial` (pcq), `C55_refuted` (p), `C55_master` (pcq), `C55_reached_partial` (pcq)

### C56  Panning is symmetric and loses no channel at centre

* Model and method: Case analysis on the sign of the panning.
* Result: **proved**. In stereo contexts; in all others panning has no effect (C56_not_stereo).
* Theorems (`Props/TrackMix, TrackReach.lean`): `C56_sides` (pcq), `C56_mirror` (pcq), `C56_monotone` (pcq), `C56_reached` (pcq), `C56_not_stereo` (pq)

### C57  Released or muted notes behave as documented

* Model and method: Case analysis of the note branches, with the instrument world of C30.
* Result: **partial**. Proved for all states; violated in that a release after the instrument has ended starts the release phase again (C57_refuted).
* Theorems (`Props/TrackNote.lean`): `C57_play` (pq), `C57_release_partial` (pq), `C57_mute` (pq), `C57_ended` (pq), `C57_refuted` (p)

### C58  Clearing a track restores the defaults

* Model and method: Evaluation of the clear function symbolically, compared with a fresh track.
* Result: **partial**. Proved for everything that can be read back except duty cycle and waveform, which are kept or lost (C58_refuted, C58_kept).
* Theorems (`Props/TrackClear, TrackReach.lean`): `C58_clear_partial` (pcq), `C58_reset_partial` (pcq), `C58_kept` (pcq), `C58_refuted` (p), `C58_reached_partial` (pcq)

### C59  Normalising scales to full range without overflow

* Model and method: `Model/Convert`. Per-frame lemmas on the scaling, maximum by fold.
* Result: **partial**. Range, order, peak and silence for all arrays of frames; signs and strict order unless a frame has the amplitude -32768, where a witness shows that small frames become silent.
* Theorems (`Props/Normalize.lean`): `C59_range` (pcq), `C59_order` (pcq), `C59_sign_partial` (pcq), `C59_peak` (pcq), `C59_silence` (pcq), `C59_refuted` (–)

### C60  Bit conversion maps packed samples to frames in order

* Model and method: Conversion loop over bits and bytes with bounds-checked writes; index arithmetic.
* Result: **partial**. For all bytes, formats, channels and contents of the allocated memory: no access outside of memory below 2^28 bytes; samples in order with strictly monotone amplitude, except the signed 8-bit sample -128 (wraps to the other sign) and data of opposite endianness (C61). Frames left uninitialised and the heap overflow at 2^29 bytes are proved as witnesses.
* Theorems (`Props/Convert.lean`): `C60_memory_partial` (pcq), `C60_samples_partial` (pcq), `C60_amplitude` (pcq), `C60_refuted_sign` (–), `C60_refuted_rest` (–), `C60_refuted_size` (p)

### C61  Reversed-endian 16-bit data is byte swapped exactly

* Model and method: Same model with both endiannesses.
* Result: **partial**. The claim is false: proved that exactly the low byte is lost on a little-endian machine, with witnesses for both machines.
* Theorems (`Props/Convert.lean`): `C61_high_partial` (pcq), `C61_refuted` (–)

### C62  Data frames cannot be used after being freed

* Model and method: `Model/DataMem`: heap of frame blocks with owner flag, units with the pointer they play. Invariant over legal sequences of calls.
* Result: **partial**. All sequences of calls that observe DataOp.Legal (six conditions on callers) neither use freed memory nor free wrongly. Seven sequences that violate one of the conditions each lead to a wrong free, a use after free or a read beyond the end (C62_refuted). Sizes do not overflow; BKDataInitCopy is in C88.
* Theorems (`Props/DataMem.lean`): `C62_memory_partial` (pcq), `C62_alive_partial` (pcq), `C62_refuted` (p)

### C63  Data state list stays well formed

* Model and method: `Model/DataState`: singly linked list of users; representation theorem.
* Result: **partial**. Binding, unbinding and notification proved for all histories in which no two neighbours (apart from those at the begin of the list) unbind during the same notification; a single notification reaches each unit once in any case (C63_notify). Otherwise the list is corrupted (C63_refuted).
* Theorems (`Props/DataState.lean`): `C63_bound_partial` (pcq), `C63_notify` (pcq), `C63_refuted` (–)

### C64  16-bit WAVE round trip is lossless

* Model and method: `Model/Wave`: byte-level writer and reader. Round trip by induction over frames and calls.
* Result: **partial**. All rates, channels, frames, split into any calls, on both kinds of machine for the reader; on a big-endian machine the writer leaves one field unreversed and the file is refused (C64_refuted).
* Theorems (`Props/Wave.lean`): `C64_roundtrip_partial` (pcq), `C64_refuted` (pcq)

### C65  8-bit WAVE round trip keeps the high byte

* Model and method: As C64, with the cut to 8 bits.
* Result: **partial**. Like C64, on a little-endian machine; amplitudes are cut to 8 bits as documented.
* Theorems (`Props/Wave.lean`): `C65_roundtrip_partial` (pcq)

### C66  WAVE header fields are consistent

* Model and method: Header bytes computed symbolically for all sizes.
* Result: **partial**. For files that begin at position 0 and for which frames have been appended; C66_offset says what the sizes are otherwise, C66_refuted gives the witnesses (wrong RIFF size at an offset, no header without frames, big-endian field).
* Theorems (`Props/Wave.lean`): `C66_header_partial` (pcq), `C66_offset` (pcq), `C66_refuted` (–)

### C67  Writing a data object stores its channel count and sample rate

* Model and method: As C66.
* Result: **partial**. Proved that rate and channels are swapped in every header written this way; the claim holds only if they are equal (C67_refuted).
* Theorems (`Props/Wave.lean`): `C67_swapped_partial` (pcq), `C67_refuted` (–)

### C68  Reading any file is safe

* Model and method: Reader on arbitrary byte lists with bounds-checked buffer.
* Result: **partial**. Header: any bytes unless the number of channels is 0. Frames: any data if its size is a multiple of the size of one frame of all channels. Division by zero and writes behind the buffer otherwise (C68_refuted).
* Theorems (`Props/WaveSafe.lean`): `C68_header_partial` (pcq), `C68_frames_partial` (pcq), `C68_refuted` (p)

### C69  Notes are in tune

* Model and method: Integer inequalities equivalent to the real-number statement (12th powers), by `decide +kernel` over the table, lifted to all rates.
* Result: **proved**.
* Theorems (`Props/Pitch.lean`): `C69_tuning` (pcq)

### C70  Sample pitches are in tune

* Model and method: As C69.
* Result: **proved**.
* Theorems (`Props/Pitch.lean`): `C70_sample_tuning` (pcq)

### C71  Playing a note with a duty-cycle envelope works for any track duty cycle

* Model and method: Condition for the scaled duty cycle to fit 32 bits; witness.
* Result: **partial**. Violated for envelopes with small values only. Proved if the envelope contains a value of at least 8 or close to the duty cycle.
* Theorems (`Props/Instrument.lean`): `C71_refuted` (p), `C71_attack_partial` (pcq)

### C72  The size a channel buffer reports is always available

* Model and method: Invariant of capacity and time of the buffer.
* Result: **proved**.
* Theorems (`Props/BufferSize.lean`): `C72_shift` (pq), `C72_read` (pcq), `C72_size` (pcq)

### C73  Attach and detach keep divider groups well formed

* Model and method: `Model/Divider` with pointer heap; representation theorem.
* Result: **proved**.
* Theorems (`Props/Links.lean`): `C73_dividers` (pq), `C73_refused` (–)

### C74  Instruments can be used in any order without memory errors

* Model and method: `Model/Instrument` with heap of sequences; invariant `IWorld.Inv` over all histories.
* Result: **partial**. No memory error for all histories; the only possible fault is arithmetic overflow in an envelope, excluded by C74_usual.
* Theorems (`Props/Instrument.lean`): `C74_safe_partial` (pcq), `C74_usual` (pcq), `C74_noleak` (pcq), `C74_live` (pcq)

### C75  Replacing a sequence affects exactly that sequence

* Model and method: Frame theorem for `BKInstrumentSetSequence`.
* Result: **proved**.
* Theorems (`Props/Instrument.lean`): `C75_replaced` (pcq)

### C76  Tracks do not disturb each other

* Model and method: Frame theorem for all calls (`IWorld.SameFor`).
* Result: **proved**.
* Theorems (`Props/Instrument.lean`): `C76_undisturbed` (pcq)

### C77  Tracks outlive their context

* Model and method: `Model/World`.
* Result: **partial**. Violated: the divider of a track stays attached to the disposed context (C77_refuted). Proved for tracks that are detached first.
* Theorems (`Props/World.lean`): `C77_attach_partial` (pq), `C77_moved_partial` (pq), `C77_refuted` (pq)

### C78  Missing data of a truncated WAVE file is silent

* Model and method: `Model/Wave`, reader on truncated byte lists.
* Result: **partial**. Proved for 16-bit files. For 8-bit files only half of the missing frames are cleared (C78_refuted).
* Theorems (`Props/WaveSafe.lean`): `C78_truncated_partial` (pcq), `C78_refuted` (p)

### C79  Chunks of a WAVE file that are not understood do not matter

* Model and method: `Model/Wave`, simulation between the file with and without the chunk.
* Result: **partial**. Proved for chunks of even size, for any other contents of the file. The padding byte of a chunk of odd size is not skipped (C79_refuted). A format chunk of 18 bytes, or a chunk before it, makes a file unreadable (C79_refuted_format).
* Theorems (`Props/WaveChunks.lean`): `C79_skipped_partial` (pcq), `C79_refuted` (p), `C79_refuted_format` (p)

### C80  Calls on tracks and instruments never fault

* Model and method: All calls of `Model/Track.lean` on any number of tracks and instruments, with every C operation that may fault checked in the model (`Fault`).  An invariant of tracks (`Track.Inv`: every slide near its range, every unit field in range, divider counters, arpeggio), of instrument states and of sequences (`TWorld.Inv`) is kept by every call whose arguments are within `WOp.Legal`; by induction over the calls no run faults.  A budget of ticks bounds the drift of slides.  `C80_refuted` has ten witnesses that the limits are needed.
* Result: **partial**. Proved for all sequences of calls, of any length, whose arguments keep within TOp.Legal/WOp.Legal (Spec/TrackSafe.lean). Ten sequences of accepted calls outside of these limits fault (C80_refuted).
* Theorems (`Props/TrackSafe.lean`): `C80_never_faults_partial` (pcq), `C80_refuted` (p)

### C81  Attributes that are read back are in range

* Model and method: From the invariant of C80: the ranges are stated in `TAttr.Reported`, apart from the model.  `BK_MUTE` and the sample attributes are not covered.
* Result: **partial**. Proved for all attributes that are read back, after any calls within the limits of C80. Not without limits: a divider of 0 or less is accepted and reported. The master volume is in range after any calls whatever (C55_master).
* Theorems (`Props/TrackSafe.lean`): `C81_reported_in_range_partial` (pcq)

### C82  What is heard is what is set

* Model and method: An invariant per track (`Track.Ok`: volume, period and duty cycle of the unit are those that would be computed now, unless an update is pending or an effect is running) is kept by every call, including notifications of instruments to all their tracks; the calls that break it and those that restore it are listed in `Spec/Current.lean`.  `C82_nothing_lost_partial` compares rendering with rendering after a forced update, `C82_heard_is_set_partial` states the values.  `C82_refuted` has five witnesses.
* Result: **partial**. Proved for all sequences of calls within the limits of C80, for tracks without a running effect, unless one of the calls in TOp.upsets came last. Setting a pitch, attaching to a context with another rate, and changing the waveform while detached leave an outdated period; so the full statement is false (C82_refuted).
* Theorems (`Props/Current.lean`): `C82_same_instrument` (p), `C82_nothing_lost_partial` (pcq), `C82_heard_is_set_partial` (pcq), `C82_refuted` (p)

### C83  Songs sound the same in any block size

* Model and method: `Model/Band` puts the tracks of `Model/Track` and the instruments of `Model/Instrument` into the context of `Model/Context`: a program is an arbitrary function from tick, own data and all tracks to a list of calls, and each track brings its unit up to date before it is rendered.  The proof of C39 and C40 is done once for any kept condition on units and program state (`Kept`, `Stable`, `CbOk`); here the condition is the invariant of C80 for every track.  Bringing units up to date twice is the same as once, which is what makes block boundaries invisible.
* Result: **partial**. Proved for every program whose calls in ticks are not attach, detach or reset, and stay within the limits of C80; tracks are attached and detached between requests, but one stays attached; up to 2^40 frames. Violated if a callback resets a track: the track is rendered again from the beginning of the current block (C83_refuted, on the level of one track).
* Theorems (`Props/Song.lean`): `C83_exact_partial` (pcq), `C83_block_size_partial` (pcq), `C83_calls_partial` (pcq), `C83_refuted` (p)

### C84  In a song, tracks behave as their calls say

* Model and method: A refinement: the calls that a program makes are recorded in a ghost list (`Band.log`), and the theorem gives a list of calls of `Model/Track`, starting from nothing, that ends in the very state of the tracks in the context, and is this log with calls `run` and `endAt` (rendering) put between.  Calls other than rendering do not depend on the time of a unit (`Lemmas/Moved`, for every function of the track model), so the units, whose time the context keeps, can be put in and taken out; bringing all units up to date and rendering them is one call `run` on each track (`Played.render`).  Then C81 and C82 follow for songs.
* Result: **partial**. Proved for every program whose calls in ticks are not attach, detach or reset, and stay within the limits of C80; tracks are attached and detached between requests, but one stays attached; up to 2^40 frames.
* Theorems (`Props/SongTracks.lean`): `C84_refines_partial` (pcq), `C84_reported_partial` (pcq), `C84_heard_is_set_partial` (pcq)

### C85  A song delivers the sum of the band-limited steps of its tracks

* Model and method: The end-to-end statement, from calls to samples.  `Spec/Sound.lean` says what a song should sound like without contexts, buffers or blocks: tracks are played apart (`TWorld.play`: calls, then time passes for all attached tracks; all steps are noted with absolute, unbounded time), a step adds its 32 frames at its place in one endless row per channel (`stepAt`, `stepsAt`), and the level is the decaying sum (`levelAt`, `soundOf`).  `C85_sound_partial`: for every recording (a song with the samples written so far) there is such a play with the calls of the program, in which time passes exactly as long as frames were delivered and no attached track is behind, ends in the very state of the tracks, and sounds as delivered.  The invariant (`Tells`) joins the refinement of C84 with one on channels (`Mixed`: frame `j` of a buffer after `T` frames is the sum of the steps at frame `T + j`).
* Result: **partial**. Proved for every program whose calls in ticks are not attach, detach or reset, and stay within the limits of C80; tracks are attached and detached between requests, but one stays attached; up to 2^40 frames. That calls in ticks come at the right time between steps is in C37 and C38, not here.
* Theorems (`Props/SongSound.lean`): `C85_sound_partial` (pcq), `C85_count_partial` (pcq), `C85_recorded_partial` (pcq), `C85_prefix_partial` (pcq)

### C86  The sound of a song follows from its calls and the times at which they are made

* Model and method: The strongest statement about whole songs.  The model of a context keeps, beside the list of calls of C84, a list of calls with the context time at which they were made (`score`; it is only written, never read).  `Spec/Score.lean` defines a performance of such a list without contexts, clocks, requests or blocks: at time 0 there is nothing; calls happen at the present time; a wait lets every attached track render for that long and moves all times back.  `C86_performance_partial`: every concert (a song in a context with clocks, with all samples so far) is a performance of its score up to the time the context was rendered to, and what was delivered is the sound (C85) of its steps.  `C86_unique_partial`: a performance is determined by the single calls and their times; this needs that a wait may be cut anywhere (`Performance.steady` cuts all waits into time units, by the chunk independence of C23), that calls may be grouped in any way, and that steps of one channel may be permuted.  `C86_follows_partial`: two concerts, with any programs, clocks and requests, whose calls before frame T are the same have the same first T frames; `C86_state_partial` is the same for the state of tracks.  `C86_order_partial`: times of calls do not go back.  Calls between requests are made at the time up to which the context has been rendered, which is that of the next tick (`currentTime`), not at the last frame delivered.
* Result: **partial**. Proved for every program whose calls in ticks are not attach, detach or reset, and stay within the limits of C80; tracks are attached and detached between requests; the context has a clock before it renders; up to 2^40 frames.
* Theorems (`Props/Score.lean`): `C86_performance_partial` (pcq), `C86_order_partial` (pcq), `C86_unique_partial` (pcq), `C86_follows_partial` (pcq), `C86_state_partial` (pcq)

### C87  Generating to a time delivers the frames up to that time

* Model and method: `Model/GenTo` adds the loop of `BKContextGenerateToTime` with a bound on its passes and any function that takes blocks.  The theorem on the number is an invariant of the loop; `C87_refuted_endless` is an induction over the passes for every context without clocks (the time of the context is only moved by ticks); `C87_refuted` computes a small witness with a clock.  `C87_tick_partial` is the case in which it works: one pass, and the whole block is read at once (`Ctx.read_all`).
* Result: **partial**. Violated by the code: without clocks it never returns a number, with clocks it delivers frames beyond the time and puts frames between later. Proved: a reached time gives nothing; a returned number means that the time is reached and is the sum of the sizes of the accepted blocks; a refused block ends it. If a clock ticks just at the time, at most 682 frames away, and nothing is rendered beyond, the frames are those that asking for frames gives (C87_tick_partial).
* Theorems (`Props/GenTo.lean`): `C87_reached_partial` (p), `C87_number_partial` (pq), `C87_refuted_endless` (pq), `C87_tick_partial` (pq), `C87_refuted` (p)

### C88  A copy of a data object or an instrument is an object of its own

* Model and method: `Model/Copy` has data objects with the content of their frames in numbered blocks, and instruments with all fields of the struct, whose memory before the call is an argument.  Content and independence are compared by what can be read through the copy (`CopyWorld.content`, `SamePlay`: every sequence of calls on the sequences gives the same values).  The loop over sequences is an invariant (`CopyLoop`).  The refutations hold for all originals and all contents of memory.
* Result: **partial**. Violated by the code: disposing of a copy has no effect, and a copied instrument keeps what was in its memory. Proved: content, independence of data copies, users; for instruments if the memory was cleared before. Sequences share their values (C28).
* Theorems (`Props/Copy.lean`): `C88_data_partial` (pq), `C88_apart_partial` (pq), `C88_refuted_data` (pq), `C88_instrument_partial` (pq), `C88_refuted_instrument` (pq)

### C89  A held note sounds at its pitch

* Model and method: The steps of one rendering are those of C45; `UCore.At` says where in a train a unit is, and an induction over the parts of the time (`Track.Inv.held_train`) joins the trains.  The distance follows from C82 (what is heard is what is set) and the exact period of C19; the tuning from C69.  `C89_song_partial` takes the state of a track from any song of C86, by way of C84.  `Lemmas/Train2` and `Props/Note2` do the same for custom waveforms and noise: `UCore.vals` is the list of values such a waveform runs through, `UCore.Runs` says a rendering makes the steps of that list.
* Result: **partial**. Proved for all tracks without running effects whose last changes are not among those that the code does not apply (C82_refuted, e.g. the pitch attribute of a playing note), for square, triangle, sawtooth, sine, custom waveforms without phase wrap, and noise (whose steps are one eighth of the period of the note apart). Samples are covered by C102. Missing: custom waveforms with a phase wrap.
* Theorems (`Props/Note, Note2.lean`): `C89_steady_partial` (pcq), `C89_song_partial` (pcq), `C89_in_tune` (pcq), `C89_note_partial` (pcq), `C89_custom_partial` (pcq), `C89_noise_partial` (pcq), `C89_song_custom_partial` (pcq), `C89_song_noise_partial` (pcq)

### C90  Data objects report what they were given

* Model and method: `Model/DataAttr` has the attribute calls of data objects; `Spec/DataAttr` tells from the list of calls what should be reported, and an induction over the calls (`DObj.after_set`) compares both.  What tracks take over is read off `Track.setData`.
* Result: **partial**. Violated by the code: setting fewer frames leaves the sustain range beyond their end, and tracks never take over the sustain range of the data though BKData.h says so (C90_refuted_frames, C90_refuted_taken). Proved: everything else, for all sequences of calls.
* Theorems (`Props/DataAttr.lean`): `C90_range` (pcq), `C90_reported` (pcq), `C90_range_kept_partial` (pcq), `C90_refuted_frames` (p), `C90_read_only` (p), `C90_pitch_taken` (pq), `C90_refuted_taken` (pq)

### C91  Converting data to fewer bits

* Model and method: `Model/Reduce` has the integer part of `BKDataReduceBits` for each frame; threshold and noise (floating point and `rand`) are arbitrary numbers.  The set of amplitudes is stated apart (`levels`).  The sixteen numbers of bits are treated one by one, each for all frames (`omega`).
* Result: **partial**. Violated by the code: amplitudes are mirrored (order and sign reversed), and with up to 8 bits they are also halved and moved up, so that silence becomes 16383 (C91_refuted_order, C91_refuted_sign, C91_refuted_silence). Proved: safety, range, number of amplitudes, and nearness to the mirrored frames, for any noise.
* Theorems (`Props/Reduce.lean`): `C91_levels` (pcq), `C91_near_partial` (pcq), `C91_refuted_order` (pcq), `C91_refuted_sign` (pcq), `C91_refuted_silence` (pcq), `C91_quiet` (pcq)

### C92  A change of tempo takes effect at the next tick and loses none

* Model and method: `Model/Tempo` (pointer attributes, `BKClockSetPeriod`) on top of `Model/Context`. The specification `beat` computes tick times from the periods set and the times reported by `BK_TIME` at the calls alone. Invariant of clocks with an arbitrary law (`ClockLaw`) through passes, requests and period changes; `C37` uses the same invariant with another law. A callback that sets the period of its own clock has the effect of choosing the next time (BKClock.c 230–240 computes the same state), which is covered by `g`; callbacks that set periods of other clocks are not modelled.
* Result: **proved**. C92_tempo: ticks are exactly the beats of the specification; C92_change: one change, in closed form; C92_report and C92_kernel: attributes.
* Theorems (`Props/Tempo.lean`): `C92_tempo` (pcq), `C92_change` (pcq), `C92_report` (pcq), `C92_kernel` (pq)

### C93  Fades and glides lead from the first to the last value and arrive

* Model and method: Calls and ticks of the track model (`Track.calls`, `Track.ticks`) from any state that satisfies the invariant of C56. Closed form of slides (C15), counting of steps by dividers (C53), and what one tick gives to the unit (`Track.tick_volume`, `Track.tick_period`). `LeadsTo` states start, limits, direction, distance to the straight line and arrival without mention of fixed point.
* Result: **partial**. Violated by slow falling slides: a fade from 1 to 0 in 600 steps leaves volume 1, even if volume 0 is set at once thereafter (C93_refuted, C93_glide_refuted). Proved for rising slides and for falling slides of at least 256 raw units per step (1/128 of a volume unit, 1/4096 half tone).
* Theorems (`Props/Fade.lean`): `C93_fade_partial` (pcq), `C93_glide_partial` (pcq), `C93_refuted` (p), `C93_glide_refuted` (p)

### C94  Sequences can be played without tracks, each state on its own

* Model and method: `Model/SeqPlay`: the caller's states, the list pointers (same text as the lists of instruments, `Links.addState`/`removeState`) and a heap of sequences. Invariant: the pointers represent lists (`HRepr`), every bound state plays an existing sequence and satisfies the invariant of C24–C26 for it. Independence by a simulation between the run and the run without the calls on other states. Copies of sequences are left out, see C28.
* Result: **partial**. Independence, lists and memory safety are proved for legal calls (C94_memory_partial, C94_alone); absence of overflow if states are cleared before they get another envelope (C94_usual). Violated otherwise: a disposed sequence leaves its states dangling (C94_dispose_refuted), and a state that gets an envelope of another scale jumps or overflows (C94_rebind_refuted).
* Theorems (`Props/SeqPlay.lean`): `C94_memory_partial` (pcq), `C94_usual` (pcq), `C94_alone` (pq), `C94_dispose_refuted` (p), `C94_rebind_refuted` (p)

### C95  Detaching a track takes out this track and nothing else

* Model and method: `Ctx.detachTrack` (`Model/Band.lean`) takes the unit of a track out of the list.  The inductions behind C83 to C86 have a case for it (`SongOk.detachTrack`, `SongOk.detach_heard`, `SongOk.detach_tells`, `SongOk.detach_gives`), so songs, recordings and concerts include detaching, and their theorems hold afterwards.  `C95_goes_on_partial` says what stays as it is, `C95_kept_partial` what the track keeps, `C95_again_partial` that it can be attached again.  The divider of the track (BKTrack.c 533) is in `Model/World.lean`; here ticks are made by the program.  One track has to stay: without any, the code renders nothing (C39).
* Result: **partial**. Proved for all songs as in C83, if another track stays attached. Violated for the only track: nothing is rendered any more (C95_refuted). A track that is detached and attached again does not play on exactly as before: the time to its next step is lost (C95_again_refuted).
* Theorems (`Props/SongDetach.lean`): `C95_goes_on_partial` (pcq), `C95_kept_partial` (pcq), `C95_again_partial` (pcq), `C95_refuted` (pq), `C95_again_refuted` (pq)

### C96  A song is the sum of its tracks played alone

* Model and method: `Spec/Stems.lean` says what playing a track alone means: calls on other tracks are left out of the list of timed calls.  `View x n w w'` (`Lemmas/Stems.lean`) relates two worlds of instruments that look the same to track x (same instruments and sequences, same state of x), whatever else is in the lists of states.  Each function of a track follows this relation (`Track.exec_view`); loops over all states of an instrument do the same to x whether or not others are in the list (`forAfter_both`, `IWorld.replace_view`, `detach_view`, `dispose_view`); calls on other tracks do not change what x sees (`TWorld.exec_other`).  `Performance.stems` is the induction over performances (C86): steps of a song are those of its tracks played alone.  `C96_stems_partial` applies C86 to both sides.  Levels decay by `level >> 9` in every frame, so the level of the sum is not the sum of levels; `levels_near` shows that they stay within 511 per track for ever, as the decay also lets the difference decay, and so samples (level >> 14) differ by no more than rounding.  `C96_own_partial` is independence of states.  Anchors name what tracks share.
* Result: **partial**. Proved for all songs as in C86. The alone-played tracks are contexts as in C86, too. Samples that would be clipped do not add up (C96_refuted), so the statement about samples has a bound for the sum of the tracks.
* Theorems (`Props/Stems.lean`): `C96_stems_partial` (pcq), `C96_sum_partial` (pcq), `C96_own_partial` (pcq), `C96_refuted` (pq)

### C97  Data loaded from files is what the file contains

* Model and method: `Model/Load`: `BKDataLoadWAVE` and `BKDataLoadRaw` on the objects and blocks of `Model/Copy` and the files of `Model/Wave`.  `Spec/Load` says what the amplitudes in a data chunk are; `IsWave` (C66) what a WAVE file is.  `readHeader_is` and `readFrames_is` read any file that `IsWave`; raw data goes back to C60.  What units play after loading is in `Model/DataMem` (C62 covers loading as well).
* Result: **partial**. Contents are proved for all WAVE files with whole frames and all raw data as in C60, and that failing changes nothing. Violated by the code: memory of earlier frames is lost whenever a file is loaded (C97_refuted_memory), raw data is never given back (C97_refuted_raw), units are not told (C97_refuted_users), malformed files write behind the memory and counts are not checked (C97_refuted_file).
* Theorems (`Props/Load.lean`): `C97_wave_partial` (pcq), `C97_failed` (pq), `C97_given_back_partial` (pq), `C97_refuted_memory` (pq), `C97_raw_partial` (pcq), `C97_raw_failed` (pq), `C97_refuted_raw` (–), `C97_refuted_users` (p), `C97_refuted_file` (p)

### C98  A note plays the sequences of its instrument as they were written

* Model and method: `Spec/Played` says from the arguments of `BKInstrumentSetSequence` which value is due after f firings of the divider, while held (`heldValue`) and after release (`releasedValue`), and when a sequence is over; no model function is used in it.  `ticks_slots` (`Lemmas/Played`): as long as nobody is muted, ticks do to every slot of an instrument state what they do to its sequence alone; `attack_slots` and `release_play` do the same for the two phase changes.  Value sequences alone are followed by invariants on the position (`HeldAt`, `LastAt`).  At track level the divider list is that of C53 and muting is that of C57; existence of the run is C80.  `C98_note_ends` and `C98_note_release` reduce the mute flag to C30, now stated for any world with the invariant (`release_events`).
* Result: **proved**. C98_alone for all sequences, envelopes included; C98_note and C98_note_release from any legally reached state of a track. Values written out for value sequences (envelopes: C25, C26).
* Theorems (`Props/Played.lean`): `C98_alone` (pcq), `C98_kept` (pcq), `C98_held` (pcq), `C98_released` (pcq), `C98_note` (pcq), `C98_note_ends` (pcq), `C98_note_release` (pcq)

### C99  Settings made of several values are read back as they were set

* Model and method: `Spec/ReadBack` says what should be read (`effectWanted`, `arpeggioWanted`; ranges by `position` and `rangeOf` of C90) and which calls may change it (`leavesEffect`, `leavesArpeggio`, `leavesInstrument`).  `Lemmas/ReadBack`: every call keeps what `BKTrackGetEffect` looks at (`Track.readFx`) except the ones named; `TWorld.run_one` lifts this to runs.  `Lemmas/ReadBackInstr`: links change only by the calls named; for instruments of others this needs the list invariant of C29.  `Lemmas/ReadBackSample`: the same for samples and ranges (`leavesSample`).  Sizes: the buffer is a list of bytes, writing behind it a fault (`Model/TrackPtr`).
* Result: **partial**. Slides, arpeggios, instruments, samples and ranges read back as claimed. Tremolo and vibrato are reported multiplied by 16384 and 32768 (C99_effect_refuted), reading an arpeggio ignores the size of the buffer (C99_size_refuted), and BKTrackSetPtr removes whatever arpeggio or effect it is given (C99_setptr_*_refuted). Samples and ranges last (C99_sample_lasts) as long as the data object itself is not changed.
* Theorems (`Props/ReadBack.lean`): `C99_effect_partial` (pcq), `C99_slides` (p), `C99_effect_others` (pcq), `C99_effect_refuted` (p), `C99_arpeggio` (pcq), `C99_instrument` (pcq), `C99_sample` (pq), `C99_sample_lasts` (pcq), `C99_range` (pcq), `C99_sustain` (pcq), `C99_bytes` (pq), `C99_bytes_fit` (pcq), `C99_size_refuted` (p), `C99_setptr_arpeggio_refuted` (–), `C99_setptr_effect_refuted` (pcq)

### C100  A track follows the data object that it plays

* Model and method: `Model/TrackData` adds data objects to the tracks of C80: `BKDataResetStates` goes through the tracks that have the object and calls the callback of their state, which is that of the track after `BKTrackInit` and that of the unit after a clear (`own`).  `Lemmas/FollowData`: each call on a track keeps `Bound` (what the unit reads is the object that it has), by way of `Track.picked` of C99.  `Lemmas/FollowData2`: the loop over the tracks (`AWorld.tellAll`), and that a track with its own callback stays in tune (`run_tone`, with the parts of C82).
* Result: **partial**. The frames are always followed. The pitch is followed unless the track was ever cleared or reset (BKTrackClear, BKTrackReset, BKContextReset): then the track plays new frames with the old period, e.g. an octave too low (C100_in_tune_refuted). Assumed: tracks are attached while their data changes, a sample keeps a number of channels that fits, a waveform is not removed as sample or the other way round; C62 shows what happens otherwise.
* Theorems (`Props/FollowData.lean`): `C100_never_faults_partial` (pcq), `C100_follows_partial` (pcq), `C100_others` (pq), `C100_gone_partial` (pcq), `C100_in_tune_partial` (pcq), `C100_period_partial` (pcq), `C100_in_tune_refuted` (pcq)

### C101  Seconds are converted to times as exactly as times can be

* Model and method: `Model/Seconds`: a double is a mantissa and an exponent, its product with an integer is rounded to 53 bits, ties to even; exponents have no limits (harmless, see there).  The compiler is taken to use IEEE doubles without extra precision.  `Lemmas/Seconds`: rounding gives the nearest number with 53 bits (`round_near`), from which exactness, monotony and the error follow; powers of two move the exponent only (`round_mul`), so that both builds round the same way.  The default period is checked in the kernel for the 5334 rates that 15 divides and proved for all others (`master_period`).  Negative seconds are undefined in builds for 32 bits (example).
* Result: **proved**. Seconds that are not negative, times that fit the type; IEEE doubles without extra precision.
* Theorems (`Props/Seconds.lean`): `C101_nearest` (pcq), `C101_exact` (pcq), `C101_long` (pcq), `C101_monotone` (pcq), `C101_same_builds` (pcq), `C101_master_clock` (pcq), `C101_drift` (pcq)

### C102  Samples are heard frame by frame at the pitch of the note, once, round and round, or back and forth

* Model and method: `Spec/Tape`: a tape of `len` frames with a head that moves by its speed; `Tape.at` is where it is after `k` output frames.  `Lemmas/Tape`: one pass of the loop of `BKUnitRunSample` is one move of the head (`sampleStep_tape`), so a run of the loop is a piece of the tape (`sampleLoop_tape`), `Lemmas/Tape2`: and rendering in parts continues it (`held_tape`); updates of the unit leave position and direction alone (`updateUnit_tape`).  `Props/Tape` adds that volume and speed are those that are set (C82), and closed forms of the position.
* Result: **partial**. Proved for all tracks without running effects whose last changes are not among those that the code does not apply (C82_refuted, e.g. the pitch attribute of a playing note), within the limits in which samples are read without fault (C51), whose unit period is not 0. Where the position is (once, round, tuning) is proved in full, back and forth for speeds of whole frames.
* Theorems (`Props/Tape.lean`): `C102_tape_partial` (pcq), `C102_song_partial` (pcq), `C102_once` (pcq), `C102_round` (pq), `C102_back_and_forth` (pcq), `C102_tuning` (pcq)

### C103  A held sample stays in its sustain range

* Model and method: `Props/TapeHold`, for the tape of C102: induction over the output frames.  `C103_refuted`: sample of four frames with the range 1 to 4; `BKUnit.h` says that the repeat mode does not affect the range.
* Result: **partial**. False for ranges that end with the sample (C103_refuted): the end of the sample is checked first, so that the held sample stops, or is repeated from its first frame. Proved if one step behind the range is within the sample.
* Theorems (`Props/TapeHold.lean`): `C103_forwards_partial` (pq), `C103_backwards_partial` (pq), `C103_loop_partial` (pq), `C103_released` (–), `C103_held` (–), `C103_end_stops` (pq), `C103_refuted` (p)

### C104  Vibrato swings around the note and tremolo below the volume

* Model and method: `Spec/Swing`: the calls, and what it means that a sequence swings (`Swings`: ends and middle exact, within the range, near straight lines, periodic).  `Lemmas/Swing`: switching off and on starts the triangle of C17 (`Osc.restart`), whose reported values swing (`Osc.swings`); effect steps of C53 are ticks of the oscillator; what one tick gives to the unit (`tick_vibrato`, `tick_tremolo`).
* Result: **partial**. Proved for tracks without instrument whose vibrato or tremolo is set at once (its depth does not slide); tremolo in full, vibrato for depths that are not negative: a negative depth of less than 256 units per step begins above the note (C104_vibrato_refuted).
* Theorems (`Props/Swing.lean`): `C104_vibrato_partial` (pcq), `C104_tremolo` (pcq), `C104_vibrato_refuted` (p)

### C105  Panning slides move a sound evenly from one place to another

* Model and method: `Spec/Sweep`: the calls and the volumes of both channels at a place.  The slide is that of C93 (`Slide.Near.fade`), `Lemmas/Sweep`: effect steps of C53 are ticks of the slide, and what one tick gives to the channels (`tick_panning`, from C56).
* Result: **partial**. Proved for slides to the right and for slides to the left of at least 256 raw units (1/128) per step, on tracks without instrument, tremolo and volume slide. Violated by slower slides to the left, which do not arrive (C105_refuted).
* Theorems (`Props/Sweep.lean`): `C105_sweep_partial` (pcq), `C105_across` (pcq), `C105_refuted` (p)

### C106  Effects run side by side without disturbing each other

* Model and method: `Lemmas/AllFx`: the steps of all effects at once are steps of each (`times_all`), calls one after the other (`calls_append`), what a tick gives to two channels under tremolo (`tick_stereo`); the single effects are those of C93, C104 and C105.
* Result: **partial**. Proved for tracks without instrument and arpeggio, for slides that rise or fall by at least 256 raw units per step and depths that are not negative; the code violates the claims about single effects otherwise (C93_refuted, C104_vibrato_refuted, C105_refuted).
* Theorems (`Props/AllFx.lean`): `C106_all_partial` (pcq)

### C107  An arpeggio is heard as set

* Model and method: `Spec/ArpHeard` states the calls and the interval of each tick; `Lemmas/ArpHeard`: position 0 after the calls whatever came before (`arpCalls_ok`), intervals by C53 and `Arp.times_tick` (`ticks_arp`), the period is up to date after every tick by C82's invariant (`ticks_ok`, `NoteNow.period`). `Lemmas/AllFx2` splits C106 into calls (`allCalls_ok`) and ticks (`AllOn.ticks`), the latter with an arpeggio.
* Result: **partial**. Proved without restriction for tracks without instrument, portamento and vibrato (C107_arpeggio). With all effects (C107_effects_partial) as far as C106: slow falling slides and negative depths are missing because the code violates the claims about them.
* Theorems (`Props/ArpHeard.lean`): `C107_arpeggio` (pcq), `C107_effects_partial` (pcq)

### C108  An instrument is heard as written

* Model and method: `Spec/InstrHeard` states what each part gives; `Props/InstrHeard` joins C98 (where each sequence stands), C82's invariant (`TWorld.run_ok`: what is set is up to date), and `Lemmas/InstrHeard` (`Track.Kept`: what notes, ticks and messages of the instrument leave alone; `VolNow.sides`: both volumes).
* Result: **proved**. Stereo tracks without other effects; no rest of an earlier portamento may be left (hypothesis hrest, see C93_refuted). Nothing is claimed about the duty cycle of instruments without duty cycle sequence; envelopes are in C98.
* Theorems (`Props/InstrHeard.lean`): `C108_instrument` (pcq), `C108_release` (pcq)

### C109  An ADSR envelope is heard in the loudness of the note

* Model and method: `Spec/AdsrHeard` (the course of the level), `Spec/Line`. `Props/AdsrHeard` joins C27 (generalised to any state that satisfies the invariant), `attack_play`/`release_play` of C98 (each sequence runs as if alone), `release_events` of C30 (when the track is muted) and the two lemmas of C108 on what a note sounds like, given what its instrument shows.
* Result: **proved**. Stereo tracks without other effects and instruments without other sequences. The level from which the attack rises is that of the instrument state when the note begins; C110 gives that it is in 0..32767. It is not always 0 (`C109_start_refuted`): an instrument that has been attached for some ticks has already risen, and a note that was cut off by muting leaves its level.
* Theorems (`Props/AdsrHeard.lean`): `C109_adsr` (pcq), `C109_start_refuted` (pq)

### C110  Instruments stay within the values written for them

* Model and method: `Spec/Within` (all written values lie between two bounds). `Props/Within`. The invariant of an attached instrument state (`SlotV` in `Lemmas/IState`) says that the value is 0 or one of the values of a sequence, or inside the hull of 0 and the points of an envelope; phase changes, ticks and new sequences keep it (`EnvSeq.step_hull`, `EnvSeq.setPhase_hull`, `Defaulted.val`). `C110_volume` adds C82 and C55.
* Result: **proved**. The duty cycle is left out: the track writes its own duty cycle into that sequence. `C110_volume` uses C82, with the calls listed there that leave the volume stale excluded.
* Theorems (`Props/Within.lean`): `C110_within` (pcq), `C110_without` (pcq), `C110_volume` (pcq)

### C111  An ADSR envelope and sequences are heard together

* Model and method: `Props/AdsrMixed`. The course of the level and the end of the note come from `adsr_core` (shared with C109), the values of the sequences from `TWorld.held_gives` and `TWorld.released_gives` (shared with C108), and the attributes of the unit from `TWorld.held_sounds` and `TWorld.released_sounds`. The vocabulary is that of `Spec/InstrHeard` and `Spec/AdsrHeard`.
* Result: **proved**. Stereo tracks without other effects. Envelopes other than ADSR are covered by C26 and C110 only.
* Theorems (`Props/AdsrMixed.lean`): `C111_mixed` (pcq)

### C112  Arpeggios and instruments are heard together

* Model and method: `Spec/ArpInstr` (the calls that set the arpeggio), `Lemmas/ArpInstr`, `Props/ArpInstr`. `Track.ArpAt` says where the arpeggio is `k` ticks after its beginning; ticks advance it (`Track.ArpAt.tick`), a note puts it to its start, a release leaves it alone. What is heard comes from `TWorld.held_sounds_arp` and `TWorld.released_sounds_arp`, from which C108 is obtained for tracks without arpeggio.
* Result: **proved**. Stereo tracks without slides, vibrato and tremolo. Samples as waveforms are left out. The arpeggio is set before the note; one that has been running in silence begins with its first interval only when its divider fires (C54).
* Theorems (`Props/ArpInstr.lean`): `C112_held` (pcq), `C112_released` (pcq)

### C113  A melody played legato runs through the instrument once

* Model and method: `Spec/Legato` (melodies), `Lemmas/Legato`, `Props/Legato`. The invariant `TWorld.Mel` says that the instrument has been run from its attack by all the ticks since the first note and that the track differs from the silent one only in the note and in what the ticks have changed. The first note establishes it (C98, C108), each further one keeps it (`TWorld.Mel.next`, from C57), by induction over the melody; what is heard follows as in C108.
* Result: **proved**. Stereo tracks without slides, vibrato, tremolo and arpeggio. Samples as waveforms are left out. The last note is followed by at least one tick; the instrument has a sustain range, as otherwise it ends on its own (C98).
* Theorems (`Props/Legato.lean`): `C113_legato` (pcq), `C113_release` (pcq)

### C114  Without two channels instruments are heard alike on all channels

* Model and method: `Props/MonoHeard`. From the melodies of C113 (`TWorld.melody_mel`, `TWorld.Mel.gives`, `TWorld.Mel.gives_released`), which do not depend on the number of channels. That tracks pan only on stereo contexts is an invariant of all calls (`TWorld.run_sided`); then `Track.VolNow.mono` gives the volume of every channel.
* Result: **proved**. Tracks without slides, vibrato, tremolo and arpeggio. Samples as waveforms are left out. All contexts of a program have the same number of channels, as in C80.
* Theorems (`Props/MonoHeard.lean`): `C114_mono` (pcq), `C114_release` (pcq)

### C115  An arpeggio goes on over a legato melody

* Model and method: `Props/LegatoArp`. A note played while another sounds leaves the arpeggio and its divider alone (`Track.nextNote_arp`); with `world_arp` of C112 and the invariant of C113, which says that the instrument keeps the notes from ending, `TWorld.Mel.go_arp` follows the place in the arpeggio by induction over the melody.
* Result: **proved**. Stereo tracks without slides, vibrato and tremolo. Samples as waveforms are left out. The last note is followed by at least one tick.
* Theorems (`Props/LegatoArp.lean`): `C115_arpeggio` (pcq)

### C116  Phrases do not influence one another

* Model and method: `Spec/Phrases`, `Lemmas/Phrases`, `Props/Phrases`. The invariant `TWorld.Ready` collects what C113 asks of a silent track; a phrase keeps it (`TWorld.Ready.phrase`): the release gives the note up (C57), ticks do not take it up again (`world_silent`), instruments and sequences are not touched (`IWorld.run_ticks_frame`), and nothing gets out of date (`stale_notes`). By induction C113 applies after any number of phrases.
* Result: **proved**. Stereo tracks without slides, vibrato, tremolo and arpeggio. Samples as waveforms are left out. The last note of each phrase is followed by at least one tick.
* Theorems (`Props/Phrases.lean`): `C116_phrases` (pcq), `C116_release` (pcq)

## Defects of the code found while modelling

Proved (theorem in brackets):

* Time: on 64-bit builds `BKTimeMake` overflows from 2048 samples on (C02); the two builds disagree for
  periods above 2^31 (C01).
* Status names: 0x1000 reads outside the table, 0xFFFF9000 gives NULL (C03).
* Objects: initialising an existing object again loses the first disposal (C04_limits).
* Buffer: three full-scale pulses at one time overflow the accumulator (C11).
* Slides: rounding bias makes values jump (C14) and stays when sliding is switched off, so that volume 0 may not be silent (C93), a finished falling slide may report more than its
  target (C15), 2^23 steps or power-of-two maxima overflow (C16), negative amplitudes leave the range
  (C18).
* Sequences: sizes wrap for 2^30 values (C24); a copied envelope shares its points with the original,
  use after free and double free (C28).
* Instruments: a release after the end starts the release part again (C30, C57); envelopes of the duty
  cycle with small values overflow at attack (C71).
* Clocks and dividers: attaching before a clock of another context corrupts lists (C33), a refused
  attach leaves the clock marked as owned (C34, C43), disposing a clock with dividers never returns
  (C36), clocks attached late make rendering hang or stay silent (C38), divider values of 2^31 and more
  fire on every tick (C35).
* Context: generating without units advances at most one chunk (C40), generating before the first unit
  is attached gives 0 frames later (C39), a track reset by a callback is rendered again from the
  beginning of the block (C83), a unit attached to a context without clocks after T frames is
  silent until frame 4096 (C41), disposing a context leaves the dividers of its tracks attached (C77), generating to a time never
  returns without clocks, and delivers too many and inserted frames with clocks (C87).
* Units: pulses beyond 16 bits wrap (C44), release with immediate jump after a change of waveform reads
  outside the table (C46), phase wrap 2 makes noise constant (C48), first block after setting the phase
  wrap is one pulse short (C49), `BK_PERIOD` with INT_MIN overflows (C50), three ways to read outside a
  sample (C51).
* Tracks: divider values of 0 or less stop effects (C53), the first note after changing the arpeggio
  still has the offset of the old one (C54), triangle ignores the volume, instrument volumes above the
  maximum amplify (C55), ten kinds of accepted calls that overflow or read outside of memory, among them
  a stereo sample whose track moves to a context with more channels, sustain ranges with immediate
  release, negative dividers and arpeggio counts, large arpeggio notes and vibratos (C80), clearing keeps the duty cycle and loses a custom waveform (C58), `BK_PITCH` and
  `BK_SAMPLE_PITCH` do not change a playing note, attaching to a context with another rate or after
  changing the waveform plays the old period (C82); `BKTrackGetEffect` reports tremolo and vibrato
  scaled, `BKTrackSetPtr` passes size 0, which removes arpeggio and effects, and reading an arpeggio
  overruns small buffers (C99); `BKUnitClear` replaces the data callback of a track by that of its
  unit, so that after a clear, a reset or `BKContextReset` new frames are played with the old period
  (C100); a sustain range that ends with the sample is not held: the sample stops or starts from its first
  frame (C103).
* Data: normalising with a frame −32768 silences small frames (C59), signed 8-bit −128 wraps, frames
  are left uninitialised if the channels do not divide the size, heap overflow at 2^29 bytes (C60),
  reversed-endian data loses its low byte (C61), six ways to use or free memory wrongly (C62), list of
  users corrupted if two neighbours unbind during one notification (C63), disposing of copies of data and
  instruments has no effect, and a copied instrument is used by whatever its memory held before
  (`sizeof (sizeof (BKInstrument))`, C88), new frames leave the sustain range beyond their end, and tracks
  never take over the sustain range, though BKData.h 160–162 says so (C90); converting to
  fewer bits mirrors the amplitudes, and up to 8 bits makes silence loud (C91).
* WAVE: on big-endian machines the writer leaves `audioFormat` unreversed (C64, C66), RIFF size wrong
  if the file begins at an offset, no header without frames (C66), `BKWaveFileWriteData` swaps rate and
  channels (C67), 0 channels divide by zero, misaligned data size writes behind the buffer (C68),
  truncated 8-bit files end in junk (C78), padding of odd chunks is not skipped (C79).

Noticed while reading, visible in the model but not stated as a theorem of their own:

* `BKTrackInit` with `BK_SAMPLE` returns success with a silent track; `BKUnitClear` replaces the data
  callback of a track by that of the unit; a failed data call leaves the waveform of the track stale;
  there is no getter for `BK_PITCH`;
  a negative arpeggio count makes `memcpy` run away; a fresh track has master volume 0.
* A sample callback makes every sample non-repeating; the fraction of the position is not reset with
  new sample data; setting a forward range on a fresh sample starts at the last frame.
* `BKDataConvert`, `BKDataLoadWAVE` and `BKDataSetData`
  leak the old frames in some cases.
* The reader does not honour the size of the `fmt ` chunk (18-byte headers are misparsed); a failed
  `BKWaveFileWriterInit` leaves the file NULL and disposing crashes; odd 8-bit data is not padded;
  `BKDataLoadWAVE` accepts more than 8 channels.

## Testing the theorems

`seeded/LOG.jsonl` has one line per fault put into a scratch copy of the model: the definition, the
edit, the claim that it breaks, the theorems whose proofs failed, and theorems that were tightened
because a fault survived.  Faults that survive are either harmless for every claim (noted there) or led
to a stronger statement.

How to read it: a fault counts as found when any proof fails, and that is weaker than it may look.  Of
459 lines, 100 have a theorem `Cnn_...` itself among those that failed, 6 have no failed theorem, and in
the other 353 only helper lemmas or examples failed.  Lean stops building there, so the theorems listed
in `not_reached` were not tried: such a line shows that the proof depends on the changed code, not that
the statement of the named claim excludes the fault.  All lines written for C107 to C116 in the last
batch are of this kind, except one where `C57_play` and one where `C54_refuted` failed as well.  The last
batch was ended before all its faults were tried; those not tried are not in the log.

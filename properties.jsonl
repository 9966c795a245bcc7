{"id": "C01", "title": "Time arithmetic is the same on 32-bit and 64-bit builds", "statement": "For the opaque time type, adding, subtracting, adding/subtracting a fixed-point period, and every comparison give the same number of samples and fraction whether the library is built for a 64-bit target (one 64-bit integer) or a 32-bit target (sample count plus 20-bit fraction).", "quantifier": "all pairs of normalised times whose exact results fit the representation, all 32-bit fixed-point periods", "why_tests_cant": "the two implementations never live in one binary, and the carry/borrow cases are a 2^52 x 2^52 space", "anchors": ["src/BKTime.h:BKTimeAdd", "src/BKTime.h:BKTimeSub", "src/BKTime.h:BKTimeAddFUInt20", "src/BKTime.h:BKTimeSubFUInt20", "src/BKTime.h:BKTimeIsGreater", "src/BKTime.h:BKTimeIsLess"]}
{"id": "C02", "title": "BKTimeMake denotes the requested sample count", "statement": "BKTimeMake(samples, frac) denotes exactly `samples` whole samples plus `frac` fractional units, so BKTimeGetTime(BKTimeMake(n, 0)) = n.", "quantifier": "all non-negative sample counts and all 20-bit fractions", "why_tests_cant": "a test picks small sample counts; the failure needs counts at or above 2048", "anchors": ["src/BKTime.h:BKTimeMake", "src/BKTime.h:BKTimeGetTime"]}
{"id": "C03", "title": "Status names are looked up safely for every code", "statement": "BKStatusGetName returns a valid, non-NULL string for every 32-bit status value, and the documented name for each documented return code.", "quantifier": "all 2^32 status values", "why_tests_cant": "tests call it with the thirteen defined codes, not with the other four billion", "anchors": ["src/BKBase.c:BKStatusGetName", "src/BKBase.c:statusNames"]}
{"id": "C04", "title": "Objects are disposed exactly once", "statement": "Whatever sequence of init, alloc and dispose calls is made, a class's dispose hook runs exactly once per successful initialisation, heap memory is freed exactly once for allocated objects and never for caller-owned ones, and disposing NULL or an already emptied caller-owned object has no effect.", "quantifier": "all finite call sequences over any number of objects and classes", "why_tests_cant": "the property is about all interleavings of lifecycle calls, not about one order", "anchors": ["src/BKObject.c:BKObjectInit", "src/BKObject.c:BKObjectAlloc", "src/BKObject.c:BKDispose"]}
{"id": "C05", "title": "Channel buffers are memory safe for any use", "statement": "No sequence of adding pulses, adding frames, ending, shifting, reading and clearing, with any 32-bit time arguments and any requested read size, makes a channel buffer read or write outside its sample array or its kernel table, and a read never writes more than min(size, available) output frames.", "quantifier": "all finite operation sequences, all 32-bit argument values", "why_tests_cant": "out-of-bounds depends on an invariant over unbounded histories and 2^32 time values", "anchors": ["src/BKBuffer.h:BKBufferAddPulse", "src/BKBuffer.h:BKBufferAddFrame", "src/BKBuffer.h:BKBufferEnd", "src/BKBuffer.h:BKBufferShift", "src/BKBuffer.c:BKBufferRead"]}
{"id": "C06", "title": "Mixing is order independent", "statement": "Pulses added to a channel between two reads may be added in any order (for example tracks rendered in any attach order) without changing any frame that is ever read afterwards.", "quantifier": "all multisets of pulses (time, amplitude), all orders, all later reads", "why_tests_cant": "the number of orders is factorial and the claim is about every subsequent read", "anchors": ["src/BKBuffer.h:BKBufferAddPulse", "src/BKBuffer.h:BKBufferAddFrame", "src/BKBuffer.c:BKBufferRead"]}
{"id": "C07", "title": "Band-limited steps have exact, phase-independent gain", "statement": "Each pulse of amplitude a adds exactly a * 32767 to the sum of the channel's samples, whichever of the 32 sub-sample phases it falls on and whichever built-in kernel is selected; hence pulses whose amplitudes cancel leave a zero total, and a signal that returns to zero leaves no DC offset.", "quantifier": "both built-in kernels, all times, all 16-bit amplitudes, all finite pulse sequences", "why_tests_cant": "tests look at waveforms by ear or at one phase; exactness needs every row of both tables and every sequence", "anchors": ["src/BKBuffer.c:BKBufferStepPhasesSinc", "src/BKBuffer.c:BKBufferStepPhasesHarm", "src/BKBuffer.h:BKBufferAddPulse"]}
{"id": "C08", "title": "Reading in pieces gives the same audio", "statement": "Reading m frames and then n frames from a channel yields the same frames, and leaves the same channel state, as reading m+n at once, for any stride.", "quantifier": "all buffer states, all m, n with m+n not above the available frames", "why_tests_cant": "the filter state, the shifted tail and the cleared gap must agree for every split", "anchors": ["src/BKBuffer.c:BKBufferRead"]}
{"id": "C09", "title": "Loud signals saturate instead of wrapping", "statement": "Every frame read is the filtered amplitude when it fits 16 bits; otherwise it is a full-scale value with the same sign, so overload never flips the sign of the output.", "quantifier": "all accumulator values reachable as 32-bit integers", "why_tests_cant": "a 2^32 input space, and the clamp uses a shift/xor trick that is easy to get wrong at the extremes", "anchors": ["src/BKBuffer.c:BKBufferRead"]}
{"id": "C10", "title": "Silence decays to digital zero", "statement": "Once no more pulses are added, the high-pass filter brings the output monotonically towards zero without overshooting, and after a bounded number of frames every following frame is exactly 0.", "quantifier": "all accumulator values, all subsequent reads", "why_tests_cant": "convergence of an integer filter from every 32-bit state is a statement about infinite runs", "anchors": ["src/BKBuffer.c:BKBufferRead"]}
{"id": "C11", "title": "Mixing never overflows", "statement": "Rendering any set of tracks never overflows the 32-bit sample accumulators of a channel.", "quantifier": "all pulse sequences a context can produce between two reads", "why_tests_cant": "overflow needs particular coincidences of many pulses on one sample", "anchors": ["src/BKBuffer.h:BKBufferAddPulse", "src/BKBuffer.c:BKBufferRead"]}
{"id": "C12", "title": "Slides end exactly on time and on target", "statement": "After setting a slide target with n > 0 steps, the value is exactly the target after n steps and stays there for ever; with n = 0 it is the target immediately.", "quantifier": "all initial values, targets within the declared maximum, all step counts", "why_tests_cant": "integer step rounding makes the last step special for each of the 2^23 step counts", "anchors": ["src/BKInterpolation.c:BKSlideStateSetValueAndSteps", "src/BKInterpolation.h:BKSlideStateStep"]}
{"id": "C13", "title": "Slides never overshoot", "statement": "While sliding, the interpolated value moves monotonically from the start value to the target and never leaves the interval between them.", "quantifier": "all start values, targets, step counts and all intermediate steps", "why_tests_cant": "one overshoot at any of up to 2^23 steps for any pair of values would be a click", "anchors": ["src/BKInterpolation.c:BKSlideStateSetValueAndSteps", "src/BKInterpolation.h:BKSlideStateStep"]}
{"id": "C14", "title": "Changing a slide midway does not jump", "statement": "Setting a new target (with a non-zero number of steps) or a new step count while a slide is running keeps the current interpolated value; only the following steps change it.", "quantifier": "all slide states and all new targets and step counts", "why_tests_cant": "requires every intermediate state of every slide", "anchors": ["src/BKInterpolation.c:BKSlideStateSetValueAndSteps", "src/BKInterpolation.h:BKSlideStateSetSteps", "src/BKInterpolation.h:BKSlideStateSetValue"]}
{"id": "C15", "title": "Reported slide value is the target when finished", "statement": "The value reported to the caller (after rounding) equals the requested target once the slide has finished, and lies between start and target before.", "quantifier": "all slides within the documented value and step ranges", "why_tests_cant": "the rounding bias is derived from the step count; wrong only for particular combinations", "anchors": ["src/BKInterpolation.h:BKSlideStateGetValue", "src/BKInterpolation.c:BKSlideStateSetValueAndSteps"]}
{"id": "C16", "title": "Slide and oscillator arithmetic stays in 32 bits", "statement": "With values not above the declared maximum and steps between 0 and BK_STATE_MAX_STEPS, no slide or oscillator operation overflows a 32-bit integer, shifts out of range or divides by zero.", "quantifier": "all operation sequences on documented arguments", "why_tests_cant": "overflow occurs only at extreme corners of a 2^54 argument space", "anchors": ["src/BKInterpolation.c:BKSlideStateSetValueAndSteps", "src/BKInterpolation.c:BKIntervalStateSetDeltaAndSteps", "src/BKInterpolation.c:BKIntervalStateStep"]}
{"id": "C17", "title": "Tremolo/vibrato oscillator is exactly periodic", "statement": "With fixed delta and steps the oscillator returns to the same value and phase after exactly 4*steps ticks, touches +delta at one quarter, 0 at one half, -delta at three quarters, and is antisymmetric (half a period later the value is negated).", "quantifier": "all deltas, all step counts, all tick counts", "why_tests_cant": "drift would only show after arbitrarily many ticks", "anchors": ["src/BKInterpolation.c:BKIntervalStateStep", "src/BKInterpolation.c:BKIntervalStateSetDeltaAndSteps"]}
{"id": "C18", "title": "Oscillator never leaves its range", "statement": "The oscillator value always stays between -delta and +delta, also when delta or steps are changed while it is running, and the step counter stays below the number of steps.", "quantifier": "all finite sequences of ticks and parameter changes", "why_tests_cant": "re-scaling the position while running is the risky case and depends on history", "anchors": ["src/BKInterpolation.c:BKIntervalStateSetDeltaAndSteps", "src/BKInterpolation.c:BKIntervalStateStep"]}
{"id": "C19", "title": "Note period lookup is total and exact", "statement": "For every 32-bit pitch and every 32-bit sample rate the period lookup reads inside its table, no intermediate product wraps, and pitches/rates outside the supported range behave as the nearest supported one.", "quantifier": "all 2^32 pitches x all 2^32 sample rates", "why_tests_cant": "2^64 inputs", "anchors": ["src/BKTone.c:BKTonePeriodLookup", "src/BKTone.c:tonePeriods"]}
{"id": "C20", "title": "Higher notes never have longer periods", "statement": "Raising the pitch never increases the period, and raising the sample rate never decreases it.", "quantifier": "all pairs of pitches, all pairs of sample rates", "why_tests_cant": "quadratic in a 2^32 space; the interpolation and 2-bit truncation could break order", "anchors": ["src/BKTone.c:BKTonePeriodLookup"]}
{"id": "C21", "title": "Sample pitch factor is exact at octaves, monotone and total", "statement": "The sample-rate factor lookup is total, strictly positive, never decreases with pitch, is exactly 1.0 at C-4 and exactly doubles/halves from octave C to octave C.", "quantifier": "all 2^32 pitches", "why_tests_cant": "2^32 inputs and pairs of inputs", "anchors": ["src/BKTone.c:BKLog2PeriodLookup", "src/BKTone.c:log2Periods"]}
{"id": "C22", "title": "An octave up halves the period within a stated error", "statement": "Raising the pitch by twelve semitones halves the period up to the table rounding (relative error bound independent of pitch and sample rate).", "quantifier": "all pitches whose octave is in range, all sample rates", "why_tests_cant": "needs all fractional pitches", "anchors": ["src/BKTone.c:BKTonePeriodLookup"]}
{"id": "C23", "title": "Simple sequences play the written values", "statement": "While attacked, a value sequence yields its values in order and then repeats the sustain range for ever; after release it yields the values behind the sustain range once, reports `finished` exactly once, and stays silent afterwards.", "quantifier": "all sequences, sustain ranges, attack lengths and tick counts", "why_tests_cant": "infinite attack phase and every release moment", "anchors": ["src/BKSequence.c:BKSequenceFuncSimpleCreate", "src/BKSequence.c:BKSequenceFuncSimpleSetPhase", "src/BKSequence.c:BKSequenceFuncSimpleStep"]}
{"id": "C24", "title": "Sequence playback never reads outside its values", "statement": "Whatever sustain arguments are passed at creation and in whatever order phases are set and steps made, a simple sequence or envelope only reads existing entries.", "quantifier": "all creation arguments (full 32-bit range), all call sequences", "why_tests_cant": "the clamped sustain range and sentinel offset form an invariant over all histories", "anchors": ["src/BKSequence.c:BKSequenceFuncSimpleStep", "src/BKSequence.c:BKSequenceFuncEnvelopeStep", "src/BKSequence.c:BKSequenceFuncSimpleCreate", "src/BKSequence.c:BKSequenceFuncEnvelopeCreate"]}
{"id": "C25", "title": "Every accepted envelope advances in finite time", "statement": "If creating an envelope succeeds, every later tick or phase change on it terminates; envelopes that could loop for ever are rejected.", "quantifier": "all envelopes, all sustain ranges, all states", "why_tests_cant": "non-termination cannot be observed by a test, and the check is a sum over a range that may wrap", "anchors": ["src/BKSequence.c:BKSequenceEnvelopeCheckValues", "src/BKSequence.c:BKSequenceFuncEnvelopeCreate", "src/BKSequence.c:BKSequenceFuncEnvelopeStep"]}
{"id": "C26", "title": "Envelopes reach each point exactly and without overshoot", "statement": "Starting a phase with s steps, the envelope value moves monotonically from its current value to the phase's value and equals it exactly after s ticks.", "quantifier": "all envelopes with values in the 16-bit range and tick counts below 2^31, all phases, all ticks", "why_tests_cant": "integer slopes are rounded; the last tick must correct every combination", "anchors": ["src/BKSequence.c:BKSequenceFuncEnvelopeStep"]}
{"id": "C27", "title": "ADSR envelope timeline", "statement": "After attack the volume rises to maximum in `attack` ticks, falls to the sustain level in `decay` ticks, holds it for as long as the note is held, and after release reaches 0 in exactly `release` ticks and reports finished; it never leaves 0..maximum. Rise and fall stay within 2 of a straight line if they take at most 32768 ticks.", "quantifier": "all attack/decay/release tick counts below 2^31, all sustain levels, all hold times", "why_tests_cant": "unbounded hold time and 2^96 parameter combinations", "anchors": ["src/BKInstrument.c:BKInstrumentSetEnvelopeADSR", "src/BKSequence.c:BKSequenceFuncEnvelopeStep", "src/BKSequence.c:BKSequenceFuncEnvelopeSetPhase"]}
{"id": "C28", "title": "Copied sequences are independent of the original", "statement": "A copy of a sequence (and of an instrument) owns its values: disposing or replacing the original does not affect playing the copy.", "quantifier": "all sequences and all later operations", "why_tests_cant": "a use-after-free usually still returns the old bytes in a test", "anchors": ["src/BKSequence.c:BKSequenceFuncSimpleCopy", "src/BKSequence.c:BKSequenceFuncEnvelopeCopy", "src/BKInstrument.c:BKInstrumentInitCopy"]}
{"id": "C29", "title": "A rejected sequence leaves the instrument unchanged", "statement": "If setting a sequence or envelope fails (invalid slot, invalid envelope), the instrument and every track playing it are exactly as before.", "quantifier": "all instruments, slots, values and attached tracks", "why_tests_cant": "atomicity on all error paths", "anchors": ["src/BKInstrument.c:BKInstrumentSetSequenceValues", "src/BKInstrument.c:BKInstrumentSetSequence", "src/BKInstrument.c:BKInstrumentSetEnvelope"]}
{"id": "C30", "title": "An instrument mutes its track exactly once per note", "statement": "From an attack, the mute notification is delivered exactly once: when the last sequence of the instrument has finished after release; never while the note is held, and releasing again has no effect.", "quantifier": "all instruments, all tick/release schedules", "why_tests_cant": "depends on the relative lengths of up to four sequences and every release moment", "anchors": ["src/BKInstrument.c:BKInstrumentStateSetPhase", "src/BKInstrument.c:BKInstrumentStateTick"]}
{"id": "C31", "title": "Disposing an instrument detaches every track using it", "statement": "After an instrument is disposed or detached no track state refers to it or to its sequences, each using track was notified once, and other instruments' users are untouched.", "quantifier": "all attach/detach histories", "why_tests_cant": "doubly linked list with callbacks that modify the list while it is being walked", "anchors": ["src/BKInstrument.c:BKInstrumentResetStates", "src/BKInstrument.c:BKInstrumentStateSetInstrument", "src/BKInstrument.c:BKInstrumentStateAddToInstrument", "src/BKInstrument.c:BKInstrumentStateRemoveFromInstrument"]}
{"id": "C32", "title": "Attach and detach keep the unit list well formed", "statement": "Under any sequence of attaching and detaching units, walking the context's list visits exactly the attached units, once each, in attach order; attaching an attached unit is refused without effect.", "quantifier": "all finite attach/detach sequences over any number of units", "why_tests_cant": "pointer-structure invariant over all histories", "anchors": ["src/BKUnit.c:BKUnitAttach", "src/BKUnit.c:BKUnitDetach"]}
{"id": "C33", "title": "Attach and detach keep the clock list well formed", "statement": "Under any sequence of attaching (at the end, at the front or before a given clock) and detaching, the context's clock list contains exactly the attached clocks in the requested order.", "quantifier": "all finite attach/detach sequences", "why_tests_cant": "pointer-structure invariant over all histories", "anchors": ["src/BKClock.c:BKClockAttach", "src/BKClock.c:BKClockDetach"]}
{"id": "C34", "title": "A refused clock attach has no effect", "statement": "If attaching a clock returns an error, clock and context are unchanged.", "quantifier": "all clocks, contexts and `before` arguments", "why_tests_cant": "error path, needs reasoning about later calls", "anchors": ["src/BKClock.c:BKClockAttach"]}
{"id": "C35", "title": "Dividers fire on every d-th tick", "statement": "A divider with value d fires on ticks 0, d, 2d, ... of its group and on no others, independently of the other dividers in the group; a value set by its callback takes effect from that firing on, with 0 meaning 1.", "quantifier": "all divider values below 2^31, all tick counts, all groups", "why_tests_cant": "unbounded tick count", "anchors": ["src/BKClock.c:BKDividerTick", "src/BKClock.c:BKDividerInitGeneric"]}
{"id": "C36", "title": "Disposing a clock always completes and detaches its dividers", "statement": "Disposing a clock terminates and leaves none of its dividers attached to it.", "quantifier": "all clocks with any number of dividers", "why_tests_cant": "non-termination is not a test outcome", "anchors": ["src/BKClock.c:BKClockDisposeObject"]}
{"id": "C37", "title": "Clock ticks do not drift", "statement": "A clock with period p attached to a fresh context ticks at context times 0, p, 2p, ... exactly, whatever other clocks exist and however rendering is split into calls; no tick is skipped or duplicated.", "quantifier": "all periods, any number of clocks with any periods, all rendering schedules", "why_tests_cant": "absence of drift over unbounded time with interacting clocks", "anchors": ["src/BKContext.c:BKClocksAdvance", "src/BKClock.c:BKClockTick", "src/BKClock.c:BKClockAdvance"]}
{"id": "C38", "title": "Clocks work whenever they are attached", "statement": "A clock attached after the context has already rendered some audio ticks at attach time and then every period, and rendering continues to terminate.", "quantifier": "all attach times and periods", "why_tests_cant": "depends on when the clock is attached relative to unbounded rendering history", "anchors": ["src/BKContext.c:BKClocksAdvance", "src/BKClock.c:BKClockReset", "src/BKContext.c:BKContextRun"]}
{"id": "C39", "title": "Generate delivers exactly the requested number of frames", "statement": "With at least one attached unit, generating n frames writes exactly n frames per channel, returns n, and writes nothing behind them.", "quantifier": "all n, all unit and clock configurations", "why_tests_cant": "all n up to 2^32 and all leftover states from previous calls", "anchors": ["src/BKContext.c:BKContextGenerate", "src/BKContext.c:BKContextEnd", "src/BKContext.c:BKContextRead"]}
{"id": "C40", "title": "Audio does not depend on the requested block size", "statement": "Generating m frames and then n frames gives sample for sample the same audio, and leaves the context in the same state, as generating m+n frames at once.", "quantifier": "all m, n, all waveforms, clocks and callbacks that only change attributes", "why_tests_cant": "2^64 splits times all programs of attribute changes", "anchors": ["src/BKContext.c:BKContextGenerate", "src/BKContext.c:BKContextRun", "src/BKContext.c:BKContextEnd", "src/BKUnit.c:BKUnitRun", "src/BKUnit.c:BKUnitEnd"]}
{"id": "C41", "title": "Units can be attached at any time", "statement": "A unit attached to a context that has already rendered audio is heard from the moment it is attached, also if the context had no clock before.", "quantifier": "all rendering histories before attaching", "why_tests_cant": "depends on a counter that underflows only in one configuration", "anchors": ["src/BKContext.c:BKContextRun", "src/BKContext.c:BKContextEnd", "src/BKUnit.c:BKUnitAttach"]}
{"id": "C42", "title": "Context parameters are sanitised", "statement": "After initialisation the number of channels is within 1..8 and the sample rate within 16000..96000, equal to the requested values if these are in range, and these are what the attribute getters report.", "quantifier": "all 32-bit arguments", "why_tests_cant": "2^64 inputs", "anchors": ["src/BKContext.c:BKContextInitGeneric", "src/BKContext.c:BKContextGetAttrInt"]}
{"id": "C43", "title": "Disposing a context releases every unit and clock", "statement": "After a context is disposed no unit and no clock refers to it, and they can be attached to another context.", "quantifier": "all attached configurations", "why_tests_cant": "list surgery over all configurations", "anchors": ["src/BKContext.c:BKContextDisposeObject", "src/BKUnit.c:BKUnitDetach", "src/BKClock.c:BKClockDetach"]}
{"id": "C44", "title": "A channel's pulses always add up to the current level", "statement": "The sum of all pulses a unit has sent to a channel since it was attached equals the level it last output there: no amplitude is lost or added, whatever is changed between renderings.", "quantifier": "all waveforms, all volume/duty/period changes between renderings, all times", "why_tests_cant": "telescoping over unbounded pulse sequences; breaks only if one difference is truncated", "anchors": ["src/BKUnit.c:BKUnitRunWaveformSquare", "src/BKUnit.c:BKUnitRunWaveform", "src/BKUnit.c:BKUnitRunSample", "src/BKBuffer.h:BKBufferAddPulse"]}
{"id": "C45", "title": "Waveform frequency is exact", "statement": "A waveform emits one pulse every `period` time units without drift and completes one cycle of its table every `count` pulses, regardless of how rendering is divided.", "quantifier": "all periods, waveforms, start phases and rendering divisions", "why_tests_cant": "no drift over unbounded time", "anchors": ["src/BKUnit.c:BKUnitRunWaveform", "src/BKUnit.c:BKUnitRunWaveformSquare", "src/BKUnit.c:BKUnitRunWaveformTriangle", "src/BKUnit.c:BKUnitRunWaveformSawtooth", "src/BKUnit.c:BKUnitRunWaveformSine"]}
{"id": "C46", "title": "Waveform table accesses are in range", "statement": "Whatever attributes are set in whatever order, rendering a built-in or custom waveform only reads existing table entries, duty cycles and phases.", "quantifier": "all attribute histories and rendering", "why_tests_cant": "phase, count and waveform are changed by different setters; the invariant spans them", "anchors": ["src/BKUnit.c:BKUnitSetAttr", "src/BKUnit.c:BKUnitRunWaveformSquare", "src/BKUnit.c:BKUnitRunWaveformCustom"]}
{"id": "C47", "title": "Volume scales and zero volume is silent", "statement": "The level of a unit never exceeds its volume in magnitude; when muted, or for a waveform with volume 0, it sends nothing to the channel, and a sample with volume 0 stays at level 0; equal volumes give identical audio on all channels.", "quantifier": "all waveforms, volumes, phases", "why_tests_cant": "sign-dependent rounding of a shift over all products", "anchors": ["src/BKUnit.c:BKUnitRunWaveform", "src/BKUnit.c:BKUnitRunWaveformSquare", "src/BKUnit.c:BKUnitRunWaveformNoise"]}
{"id": "C48", "title": "Noise generator never locks up", "statement": "The noise generator's state never becomes zero and stays within 16 bits, so noise never turns into a constant, for any start phase and any phase wrap.", "quantifier": "all reachable states, all step counts", "why_tests_cant": "a lock-up state among 65536 only shows after long runs", "anchors": ["src/BKUnit.c:BKUnitRunWaveformNoise"]}
{"id": "C49", "title": "Noise with phase wrap repeats exactly", "statement": "With a phase wrap of w the noise sequence repeats with period exactly w pulses.", "quantifier": "all w >= 2, all pulse counts", "why_tests_cant": "unbounded sequence", "anchors": ["src/BKUnit.c:BKUnitRunWaveformNoise", "src/BKUnit.c:BKUnitSetAttr"]}
{"id": "C50", "title": "Attribute setters clamp and round-trip, errors change nothing", "statement": "After a unit attribute is set successfully, reading it back gives the documented clamped value, and other attributes keep theirs, except for the phase, which waveform, duty cycle, phase wrap and release change; an unknown attribute or waveform is refused and changes nothing.", "quantifier": "all attributes, all 32-bit values, all states", "why_tests_cant": "all combinations of attribute, value and state", "anchors": ["src/BKUnit.c:BKUnitSetAttr", "src/BKUnit.c:BKUnitGetAttr"]}
{"id": "C51", "title": "Sample playback stays inside the sample", "statement": "Playing a sample forwards, backwards, repeated or back-and-forth, with any range, sustain range, pitch and release, only reads frames of the attached data.", "quantifier": "all data lengths, ranges, repeat modes, pitches, rendering lengths", "why_tests_cant": "off-by-one at boundaries depends on fractional pitch accumulation", "anchors": ["src/BKUnit.c:BKUnitRunSample", "src/BKUnit.c:BKUnitResetSample", "src/BKUnit.c:BKUnitWrapSamplePhase", "src/BKUnit.c:BKUnitUpdateSampleRange", "src/BKUnit.c:BKUnitUpdateSampleSustainRange"]}
{"id": "C52", "title": "A non-repeating sample plays once and stops", "statement": "Played forwards without repetition, a sample of n frames at pitch factor f visits the frames in order, stops after the last one and mutes the unit.", "quantifier": "all lengths, all pitch factors, all rendering divisions", "why_tests_cant": "fractional accumulation over the full length", "anchors": ["src/BKUnit.c:BKUnitRunSample", "src/BKUnit.c:BKUnitResetSample"]}
{"id": "C53", "title": "Track dividers tick every d-th time", "statement": "The arpeggio, effect and instrument dividers of a track fire on the first tick after being reset and then on every d-th one.", "quantifier": "all divider values, all tick counts", "why_tests_cant": "unbounded tick count", "anchors": ["src/BKTrack.c:BKDividerStateTick"]}
{"id": "C54", "title": "Arpeggio cycles through its notes", "statement": "With an arpeggio of n notes, the offset selected is always one of the n given notes, visited cyclically in order.", "quantifier": "all arpeggios, all ticks and all replacements while playing", "why_tests_cant": "replacing an arpeggio with a shorter one while the position is advanced", "anchors": ["src/BKTrack.c:BKTrackSetPtrObj", "src/BKTrack.c:BKTrackTick"]}
{"id": "C55", "title": "Track volume mixing stays in range", "statement": "The channel volumes computed from note volume, master volume, instrument volume, tremolo and panning are always within 0..maximum, never louder than note volume or master volume, and are zero if any of the factors is zero.", "quantifier": "all parameter combinations and all effect states", "why_tests_cant": "five interacting 16-bit factors", "anchors": ["src/BKTrack.c:BKTrackUpdateUnitVolume"]}
{"id": "C56", "title": "Panning is symmetric and loses no channel at centre", "statement": "At centre both channels get the full volume, panning to one side lowers only the other channel, mirror-image positions swap the channels, and full panning silences the opposite channel.", "quantifier": "all panning positions and volumes", "why_tests_cant": "rounding at each of 65535 positions times volumes", "anchors": ["src/BKTrack.c:BKTrackUpdateUnitVolume"]}
{"id": "C57", "title": "Released or muted notes behave as documented", "statement": "Setting a note starts the instrument attack and unmutes, releasing starts the release phase once, muting silences immediately; from any state a new note sounds.", "quantifier": "all event sequences", "why_tests_cant": "all interleavings of note events", "anchors": ["src/BKTrack.c:BKTrackSetAttrInt", "src/BKTrack.c:BKTrackClear"]}
{"id": "C58", "title": "Clearing a track restores the defaults", "statement": "After a track is cleared its attributes equal those of a freshly initialised track except for the master volume.", "quantifier": "all histories", "why_tests_cant": "needs every attribute after every history", "anchors": ["src/BKTrack.c:BKTrackClear", "src/BKTrack.c:BKTrackReset"]}
{"id": "C59", "title": "Normalising scales to full range without overflow", "statement": "Normalising data keeps every frame within range, keeps signs and order of frames, brings the peak to full scale (up to rounding) and leaves silence unchanged.", "quantifier": "all frame arrays", "why_tests_cant": "all 16-bit values against all peaks", "anchors": ["src/BKData.c:BKDataNormalize"]}
{"id": "C60", "title": "Bit conversion maps packed samples to frames in order", "statement": "Loading packed 1/2/4/8/16-bit raw data yields one frame per packed sample in order with monotone amplitude, and never writes outside the frame buffer.", "quantifier": "all data, all supported formats, signed and unsigned, both endiannesses", "why_tests_cant": "all bytes in all positions", "anchors": ["src/BKData.c:BKDataConvertFromBits", "src/BKData.c:BKDataSetData"]}
{"id": "C61", "title": "Reversed-endian 16-bit data is byte swapped exactly", "statement": "Loading 16-bit data of the opposite byte order equals byte-swapping each sample and loading it in native order.", "quantifier": "all data", "why_tests_cant": "a lost low byte is hard to hear and any test with zero low bytes passes", "anchors": ["src/BKData.c:BKDataConvertFromBits"]}
{"id": "C62", "title": "Data frames cannot be used after being freed", "statement": "Replacing or disposing the frames of a data object never leaves a unit playing freed memory and never frees memory the library does not own or frees twice.", "quantifier": "all sequences of set-frames, set-data, dispose and unit attach operations", "why_tests_cant": "ownership flags over all histories", "anchors": ["src/BKData.c:BKDataSetFrames", "src/BKData.c:BKDataSetData", "src/BKData.c:BKDataResetStates", "src/BKData.c:BKDataDispose"]}
{"id": "C63", "title": "Data state list stays well formed", "statement": "Under any sequence of binding and unbinding units to data, the data's list contains exactly the bound states, and notifications reach each of them once even if some unbind themselves during the notification.", "quantifier": "all histories and all subsets that unbind", "why_tests_cant": "singly linked list surgery while iterating", "anchors": ["src/BKData.c:BKDataResetStates", "src/BKData.c:BKDataStateAddToData", "src/BKData.c:BKDataStateRemoveFromData", "src/BKData.c:BKDataStateSetData"]}
{"id": "C64", "title": "16-bit WAVE round trip is lossless", "statement": "Writing frames as 16-bit WAVE (in any number of append calls) and reading the file back yields the same channel count, sample rate, frame count and frames.", "quantifier": "all frame sequences, channel counts, sample rates and append divisions", "why_tests_cant": "all files", "anchors": ["src/BKWaveFileWriter.c:BKWaveFileWriterAppendFrames", "src/BKWaveFileWriter.c:BKWaveFileWriterTerminate", "src/BKWaveFileReader.c:BKWaveFileReaderReadHeader", "src/BKWaveFileReader.c:BKWaveFileReaderReadFrames"]}
{"id": "C65", "title": "8-bit WAVE round trip keeps the high byte", "statement": "Writing frames as 8-bit WAVE and reading back yields each frame with its low byte cleared.", "quantifier": "all frame sequences", "why_tests_cant": "all values and lengths, chunked conversion buffer", "anchors": ["src/BKWaveFileWriter.c:BKWaveFileWriterAppendFrames", "src/BKWaveFileReader.c:BKWaveFileReaderReadFrames"]}
{"id": "C66", "title": "WAVE header fields are consistent", "statement": "A terminated file's RIFF size is the file length minus 8, the data chunk size is the number of sample bytes, block align and byte rate match channels, bits and rate, and the file is a valid RIFF whatever was appended and wherever in the stream writing started.", "quantifier": "all writer parameters, append sequences and start offsets", "why_tests_cant": "all parameter combinations", "anchors": ["src/BKWaveFileWriter.c:BKWaveFileWriterWriteHeader", "src/BKWaveFileWriter.c:BKWaveFileWriterTerminate"]}
{"id": "C67", "title": "Writing a data object stores its channel count and sample rate", "statement": "BKWaveFileWriteData writes a file whose header holds the data object's channel count and the given sample rate.", "quantifier": "all data objects and sample rates", "why_tests_cant": "a test that only reads back the frames does not notice swapped fields", "anchors": ["src/BKWaveFileWriter.c:BKWaveFileWriteData"]}
{"id": "C68", "title": "Reading any file is safe", "statement": "Opening an arbitrary byte sequence as WAVE file either fails with an error code or reports a header such that reading the frames stays within the documented output buffer size; it never divides by zero and always terminates.", "quantifier": "all byte sequences", "why_tests_cant": "adversarial inputs", "anchors": ["src/BKWaveFileReader.c:BKWaveFileReaderReadHeader", "src/BKWaveFileReader.c:BKWaveFileReaderReadFrames"]}
{"id": "C69", "title": "Notes are in tune", "statement": "The period of every note equals the equal-tempered one (A at index 45 is 440 Hz) rounded down by less than four sample-rate units, at every sample rate.", "quantifier": "all 97 notes x all supported sample rates", "why_tests_cant": "a test compares a few notes with floating point; exactness for every note and rate needs a proof", "anchors": ["src/BKTone.c:BKTonePeriodLookup", "src/BKTone.c:tonePeriods"]}
{"id": "C70", "title": "Sample pitches are in tune", "statement": "The playback-rate factor of every whole semitone equals 2^((n-48)/12) in 12.20 fixed point rounded down by less than four units.", "quantifier": "all 97 semitones", "why_tests_cant": "exact comparison with an irrational number", "anchors": ["src/BKTone.c:BKLog2PeriodLookup", "src/BKTone.c:log2Periods"]}
{"id": "C71", "title": "Playing a note with a duty-cycle envelope works for any track duty cycle", "statement": "Attacking a note on a track with an instrument that has a duty-cycle envelope never overflows, whatever the track's duty cycle and the envelope's points.", "quantifier": "all track duty cycles 1..15 and all duty-cycle envelopes", "why_tests_cant": "the failing combinations depend on the precision chosen from the envelope's largest value", "anchors": ["src/BKTrack.c:BKTrackSetInstrumentInitValues", "src/BKSequence.c:BKSequenceEnvelopeSetValue"]}
{"id": "C72", "title": "The size a channel buffer reports is always available", "statement": "Shifting and reading never pass the part of the buffer that has been ended: the reported size never becomes negative, and reading n frames with n at most the reported size delivers exactly n frames and lowers the size by n.", "quantifier": "all histories of pulses, ends, shifts and reads", "why_tests_cant": "unbounded histories", "anchors": ["src/BKBuffer.c:BKBufferShift", "src/BKBuffer.h:BKBufferSize", "src/BKBuffer.c:BKBufferRead", "src/BKBuffer.c:BKBufferEnd"]}
{"id": "C73", "title": "Attach and detach keep divider groups well formed", "statement": "After any sequence of attaching and detaching dividers every group lists exactly the dividers attached to it, each once and in order of attachment, forwards and backwards; a divider attached elsewhere is refused without effect.", "quantifier": "all sequences of attach and detach over any number of dividers and groups", "why_tests_cant": "pointer structures under arbitrary histories", "anchors": ["src/BKClock.c:BKDividerAttachToGroup", "src/BKClock.c:BKDividerDetach"]}
{"id": "C74", "title": "Instruments can be used in any order without memory errors", "statement": "Whatever instruments and sequences are created, replaced, attached, played, released, detached and disposed, no freed sequence is used or freed again, no pointer dangles, and no sequence is left in memory that no instrument owns.", "quantifier": "all histories of instrument and note calls over any number of tracks and instruments", "why_tests_cant": "use after free depends on the history of attaches and replacements; tests cover a few", "anchors": ["src/BKInstrument.c:BKInstrumentSetSequenceValues", "src/BKInstrument.c:BKInstrumentStateSetInstrument", "src/BKInstrument.c:BKInstrumentDisposeObject", "src/BKInstrument.c:BKInstrumentStateSetPhase"]}
{"id": "C75", "title": "Replacing a sequence affects exactly that sequence", "statement": "Setting a sequence of an instrument replaces that one sequence and nothing else: every track using the instrument falls silent, is told so if it was playing, and is told to reset; all other sequences, instruments and tracks are unchanged.", "quantifier": "all histories, instruments, slots and sequences", "why_tests_cant": "needs the state of every other object in every history", "anchors": ["src/BKInstrument.c:BKInstrumentSetSequenceValues", "src/BKInstrument.c:BKInstrumentStateSetSequence", "src/BKInstrument.c:BKInstrumentResetStates"]}
{"id": "C76", "title": "Tracks do not disturb each other", "statement": "A call made on one track, or on an instrument that another track does not use, leaves that other track's instrument, sequences, position and notifications unchanged.", "quantifier": "all histories and calls", "why_tests_cant": "non-interference over all pairs of objects", "anchors": ["src/BKInstrument.c:BKInstrumentStateAddToInstrument", "src/BKInstrument.c:BKInstrumentStateRemoveFromInstrument", "src/BKInstrument.c:BKInstrumentStateTick", "src/BKTrack.c:BKTrackSetInstrument"]}
{"id": "C77", "title": "Tracks outlive their context", "statement": "After a context is disposed, a track that was attached to it can be attached to another context and works there like in the first one: it is rendered and its effects, arpeggio and instrument advance with the clock.", "quantifier": "all tracks and contexts, in any order of attaching, detaching and disposing", "why_tests_cant": "needs an invariant over the lists of units, dividers and clocks of all contexts", "anchors": ["src/BKContext.c:BKContextDisposeObject", "src/BKContext.c:BKContextAttachDivider", "src/BKTrack.c:BKTrackAttach", "src/BKTrack.c:BKTrackDetach"]}
{"id": "C78", "title": "Missing data of a truncated WAVE file is silent", "statement": "If a WAVE file ends before the end of the data its header announces, reading the frames yields the frames that are there, followed by silence; the output buffer contains nothing left over from before.", "quantifier": "all files, positions of the end, bit depths, numbers of channels and contents of the output buffer", "why_tests_cant": "depends on the previous contents of the buffer and on where the file ends; a test sees one case", "anchors": ["src/BKWaveFileReader.c:BKWaveFileReaderReadFrames"]}
{"id": "C79", "title": "Chunks of a WAVE file that are not understood do not matter", "statement": "Reading a WAVE file gives the same channels, sample rate, number of frames and frames, or the same failure, whether or not there are other RIFF chunks between format and data.", "quantifier": "all files, and all numbers, names, sizes and contents of chunks", "why_tests_cant": "unbounded number and size of chunks, arbitrary contents", "anchors": ["src/BKWaveFileReader.c:BKWaveFileReaderReadHeader"]}
{"id": "C80", "title": "Calls on tracks and instruments never fault", "statement": "No sequence of calls on tracks and instruments (notes, attributes, effects, arpeggios, samples, sustain ranges, instruments and their sequences, attaching, detaching, clearing, ticking, rendering, disposing) overflows an integer, divides by zero, reads or writes outside of an array, uses NULL or freed memory, or fails to end.", "quantifier": "all sequences of calls on any number of tracks and instruments with all arguments", "why_tests_cant": "state of tracks, instruments and samples combines over unbounded histories; faults are silent until memory is corrupted", "anchors": ["src/BKTrack.c:BKTrackUpdateUnit", "src/BKTrack.c:BKTrackTick", "src/BKUnit.c:BKUnitRun", "src/BKInstrument.c:BKInstrumentStateTick"]}
{"id": "C81", "title": "Attributes that are read back are in range", "statement": "At any time a track reports a volume and master volume of 0..maximum, a panning of -maximum..maximum, a note of 0..96 semitones or none, a sample pitch within 48 semitones, a duty cycle of 1..15, a known waveform, dividers of at least 1, and slides of 0..65536 steps.", "quantifier": "all sequences of calls on any number of tracks and instruments", "why_tests_cant": "holds for every state reached by unbounded histories, including values changed by slides, instruments and ticks", "anchors": ["src/BKTrack.c:BKTrackGetAttrInt", "src/BKTrack.c:BKTrackSetAttrInt"]}
{"id": "C82", "title": "What is heard is what is set", "statement": "Whenever a track without a running effect is rendered, it sounds with the volume, panning, pitch and duty cycle that follow from its current attributes, arpeggio and instrument: computing them afresh before rendering makes no difference, so no earlier change is lost and no outdated value is played.", "quantifier": "all sequences of calls on any number of tracks and instruments, and all lengths of the rendering", "why_tests_cant": "updates are deferred by flags that many calls set and clear; whether some order of calls loses one cannot be seen from single calls", "anchors": ["src/BKTrack.c:BKTrackUpdateUnit", "src/BKTrack.c:BKTrackSetAttrInt", "src/BKTrack.c:BKTrackAttach", "src/BKTrack.c:BKTrackTick", "src/BKTrack.c:BKTrackInstrStateCallback"]}
{"id": "C83", "title": "Songs sound the same in any block size", "statement": "A program with any number of tracks and instruments, which makes calls on them whenever a clock ticks and between requests, gets exactly the frames it asks for. The samples, and the state of all tracks afterwards, do not depend on how the frames are divided into requests. No request faults.", "quantifier": "all programs (any reaction to any tick), all numbers of tracks and clocks, all histories, all divisions into requests", "why_tests_cant": "the reaction to a tick is arbitrary and may happen anywhere in a block; tests compare a few songs in a few block sizes", "anchors": ["src/BKContext.c:BKContextGenerate", "src/BKContext.c:BKContextRun", "src/BKContext.c:BKClocksAdvance", "src/BKTrack.c:BKTrackRun", "src/BKTrack.c:BKTrackUpdateUnit", "src/BKTrack.c:BKTrackReset", "src/BKTrack.c:BKTrackAttach"]}
{"id": "C84", "title": "In a song, tracks behave as their calls say", "statement": "While a context plays, every call that a program makes on tracks and instruments, be it between requests or when a clock ticks, takes effect exactly once and in the order of the calls: at any time the state of all tracks and instruments is the one that results from making just these calls one after another, with nothing but rendering between. So what is known about calls on single tracks (ranges of attributes, what is heard is what is set) holds in whole songs.", "quantifier": "all programs (any reaction to any tick), all numbers of tracks, instruments and clocks, all histories of calls and requests", "why_tests_cant": "updates are deferred, clocks tick in the middle of blocks, and several clocks tick at once; whether a call gets lost in some combination cannot be seen from single songs", "anchors": ["src/BKContext.c:BKContextRun", "src/BKContext.c:BKClocksAdvance", "src/BKContext.c:BKContextGenerate", "src/BKTrack.c:BKTrackRun", "src/BKUnit.c:BKUnitEnd", "src/BKTrack.c:BKTrackAttach"]}
{"id": "C85", "title": "A song delivers the sum of the band-limited steps of its tracks", "statement": "Every sample that a context delivers is determined by the steps of the waveforms of its tracks alone: play each track on its own with the calls that the program made, note every step with its channel, its height and its time since the beginning, replace each by the band-limited step at that time, and add up all of them per channel (with the slow decay of the level and the limit of the output). Nothing else is in the output, no step is lost, made twice or moved, whatever the block sizes, clocks and number of tracks; samples delivered do not depend on what is played later.", "quantifier": "all programs (any reaction to any tick), all numbers of tracks, instruments, channels and clocks, all histories of calls and requests", "why_tests_cant": "a sample depends on steps of all tracks in any earlier frame; tests compare single waves in single blocks", "anchors": ["src/BKContext.c:BKContextGenerate", "src/BKContext.c:BKContextRun", "src/BKContext.c:BKContextEnd", "src/BKContext.c:BKContextRead", "src/BKBuffer.c:BKBufferAddPulse", "src/BKBuffer.c:BKBufferRead", "src/BKBuffer.c:BKBufferShift", "src/BKUnit.c:BKUnitRun"]}
{"id": "C86", "title": "The sound of a song follows from its calls and the times at which they are made", "statement": "What a context with clocks delivers depends on nothing but the calls that are made on its tracks and instruments and the (context) times at which they are made: every call takes effect exactly at its time, between calls all attached tracks play on, and neither the clocks and callbacks that made the calls, nor the number of ticks without calls, nor the sizes of the requests leave any trace in the samples or in the state of the tracks. Calls made at or after a frame never change what was delivered before it.", "quantifier": "for all pairs of contexts with the same number of channels, all callback programs, all sets of clocks, all sequences of requests for frames, all calls between requests and all frame counts up to 2^40", "why_tests_cant": "The claim compares all pairs of arrangements of clocks, callbacks and block sizes that happen to make the same calls at the same times; a test compares two such arrangements for a few frames.", "anchors": ["src/BKContext.c:BKContextRun", "src/BKContext.c:BKContextGenerate", "src/BKContext.c:BKContextEnd", "src/BKClock.c:BKClockAdvance", "src/BKTrack.c:BKTrackRun", "src/BKTrack.c:BKTrackAttach", "src/BKUnit.c:BKUnitRun"]}
{"id": "C87", "title": "Generating to a time delivers the frames up to that time", "statement": "BKContextGenerateToTime makes the frames from where the context is up to the given time, hands them to the caller's function in blocks, and returns their number. It always returns. The frames are the same that asking for that number of frames would have given, also if the time is reached in several steps. A time that has been reached needs no frames. If the caller's function refuses a block, nothing more is made and an error is returned.", "quantifier": "all contexts, units, clocks and callbacks, all times, all functions that take the blocks", "why_tests_cant": "whether the loop ends and whether frames are lost or inserted depends on how clocks and block sizes meet; tests generate to a few times", "anchors": ["src/BKContext.c:BKContextGenerateToTime", "src/BKContext.c:BKContextEnd", "src/BKContext.c:BKContextRead"]}
{"id": "C88", "title": "A copy of a data object or an instrument is an object of its own", "statement": "BKDataInitCopy and BKInstrumentInitCopy make an object of memory with any content: the copy has the frames and settings, or the sequences, of the original, is used by no track, and stays the same whatever happens to the original afterwards. The original and its users are not affected. Disposing of the copy detaches its users and releases its memory.", "quantifier": "all originals, all contents of the memory of the copy, all later changes of the original", "why_tests_cant": "that nothing is shared and nothing is left uninitialised is a statement about all contents of memory and all later calls; a test sees a copy that works with the memory it happens to get", "anchors": ["src/BKData.c:BKDataInitCopy", "src/BKData.c:BKDataSetFrames", "src/BKInstrument.c:BKInstrumentInitCopy", "src/BKSequence.c:BKSequenceCopy", "src/BKObject.c:BKDispose"]}
{"id": "C89", "title": "A held note sounds at its pitch", "statement": "While no calls are made, a track that is attached, not muted, has no running effect and plays one of the periodic waveforms makes steps at exactly equal distances on every channel, for however long and in whatever parts it is rendered; the steps run through the values of the waveform in order and are scaled by the volume that is set. One cycle takes the time that belongs to the sum of note, arpeggio, instrument pitch and pitch; for a whole note this is the equal-tempered time of the note with A = 440 Hz at the sample rate of the context, short of it by less than about four millionths of a second.", "quantifier": "for all histories of calls and songs, all notes, pitches, sample rates and numbers of channels, all durations and their divisions", "why_tests_cant": "a frequency is a statement about all later steps; tests hear a few notes for a few frames and cannot tell a drift from a rounded period", "anchors": ["src/BKTrack.c:BKTrackRun", "src/BKTrack.c:BKTrackUpdateUnit", "src/BKTrack.c:BKTrackUpdateUnitNote", "src/BKUnit.c:BKUnitRun", "src/BKUnit.c:BKUnitSetAttr", "src/BKTone.c:BKTonePeriodLookup"]}
{"id": "C90", "title": "Data objects report what they were given", "statement": "After any calls on a data object, the numbers of frames and channels that are reported are those of the last call that was accepted, the pitch is the one set last, limited to 48 half tones up and down, and the sustain range is the one set last, as two positions in order that lie within the frames; negative positions count from the end. Counts cannot be set as attributes. A track that is given the data takes over its pitch and its sustain range.", "quantifier": "all sequences of calls with all values", "why_tests_cant": "ranges may be given from the end, backwards or too large, and interact with frames that are set before and after; tests try a few ranges", "anchors": ["src/BKData.c:BKDataSetAttrInt", "src/BKData.c:BKDataGetAttrInt", "src/BKData.c:BKDataSetPtr", "src/BKData.c:BKDataGetPtr", "src/BKData.c:BKDataSetFrames", "src/BKData.h:BK_SAMPLE_SUSTAIN_RANGE", "src/BKTrack.c:BKTrackSetPtr"]}
{"id": "C91", "title": "Converting data to fewer bits", "statement": "BKDataConvert with n bits never faults and leaves at most 2^n different amplitudes, all within the 16-bit range. Each frame is changed by no more than one step of the new resolution and the noise that is added; order and sign of the amplitudes are kept, and frames below the threshold become silent.", "quantifier": "all numbers of bits, frames, thresholds and noise values", "why_tests_cant": "rounding, clipping and noise interact for every combination of frame and number of bits; tests convert a few files", "anchors": ["src/BKData.c:BKDataReduceBits", "src/BKData.c:BKDataConvert", "src/BKData.h:BKDataConvertInfo"]}
{"id": "C92", "title": "A change of tempo takes effect at the next tick and loses none", "statement": "Setting the clock period of a context (BKContextSetPtr or BKSetPtr with BK_CLOCK_PERIOD) accepts exactly positive periods, which BKContextGetPtr then reports; a refused one changes nothing. However often and whenever the period is set between generating, reading and changing units, and whatever next times the clock's own callback chooses, the clock ticks at exactly these times: first at time 0; each next tick comes after the period that was in force at the tick before, that is the next time its callback chose there, or else the period set last at or before that tick. A tick that is already due at a time is not moved by setting a period. No tick is lost, doubled or made out of order, other clocks are not affected, and there is no drift. BK_TIME reports the time up to which ticks have happened. BK_PULSE_KERNEL sets the kernel of all channels and is reported; NULL restores the default one.", "quantifier": "for all contexts that have not rendered yet, with any clocks of positive periods; all sequences of calls and all times and values of period changes; all callbacks of the other clocks, and all choices of the clock's own callback that depend on the time", "why_tests_cant": "Tempo changes can come at any time relative to ticks and to the blocks in which sound is generated; tests try few positions, and errors of one tick only show as slow drift.", "anchors": ["src/BKContext.c:BKContextSetPtr", "src/BKContext.c:BKContextGetPtr", "src/BKClock.c:BKClockSetPeriod", "src/BKClock.c:BKClockTick", "src/BKContext.c:BKContextRun"]}
{"id": "C93", "title": "Fades and glides lead from the first to the last value and arrive", "statement": "Set a track that has no instrument, tremolo or panning to volume S, then switch on BK_EFFECT_VOLUME_SLIDE with n steps and set volume v. From the next tick on each tick gives every channel the volume reached by the slide times the master volume; the slide starts at S, stays between S and v, never turns back, keeps within 3 units of the straight line, makes one step every BK_EFFECT_DIVIDER ticks and is exactly v after n steps. Likewise with BK_EFFECT_PORTAMENTO a track without instrument, vibrato and arpeggio glides from note a to note b: each tick sets the tone period of the pitch reached.", "quantifier": "for every state reachable by legal calls on tracks and instruments; all values, notes, numbers of steps 1 to 65536, dividers; every number of ticks", "why_tests_cant": "Rounding of the steps depends on distance, number of steps and history of the slide; tests sample a few slides and mostly look at the end value that is reported, not at what the channels are given.", "anchors": ["src/BKInterpolation.c:BKSlideStateSetValueAndSteps", "src/BKInterpolation.h:BKSlideStateGetValue", "src/BKTrack.c:BKTrackSetEffect", "src/BKTrack.c:BKTrackTick", "src/BKTrack.c:BKTrackUpdateUnitVolume", "src/BKTrack.c:BKTrackUpdateUnitNote"]}
{"id": "C94", "title": "Sequences can be played without tracks, each state on its own", "statement": "A caller may create value sequences and envelopes, bind any number of its own sequence states to them, change phases, step, set values, rebind and unbind, and dispose of sequences, in any order. No call reads memory of a disposed sequence, runs forever or overflows; a sequence lists exactly the states bound to it, each once; and the return values and values of one state do not depend on what is done with other states, even with those bound to the same sequence. A state bound to another sequence continues from its current value.", "quantifier": "for all numbers of states and sequences and all sequences of legal calls", "why_tests_cant": "The lists are linked through the states of the caller and change with every bind; tests use one or two states in a fixed order.", "anchors": ["src/BKSequence.c:BKSequenceCreate", "src/BKSequence.c:BKSequenceStateAddToSequence", "src/BKSequence.c:BKSequenceStateRemoveFromSequence", "src/BKSequence.c:BKSequenceStateSetSequence", "src/BKSequence.c:BKSequenceDispose", "src/BKSequence.c:BKSequenceStateSetPhase", "src/BKSequence.c:BKSequenceStateStep", "src/BKSequence.c:BKSequenceStateSetValue"]}
{"id": "C95", "title": "Detaching a track takes out this track and nothing else", "statement": "A track of a playing context can be detached between two requests for frames, whether or not it sounds. The context plays on without it: the other tracks, their order, all instruments, the clocks, the time and the frames not yet read stay exactly as they are, and the following requests are served as before. The detached track keeps everything that is set on it (attributes, effects, arpeggio, instrument, sample) and can be attached again at any time.", "quantifier": "for all songs (any programs, numbers of tracks, instruments and clocks, histories of calls and requests), any track and any time between requests", "why_tests_cant": "detaching changes a linked list that is walked in every block and a unit that is in the middle of a wave; tests detach one or two tracks at the end of a song", "anchors": ["src/BKTrack.c:BKTrackDetach", "src/BKUnit.c:BKUnitDetach", "src/BKTrack.c:BKTrackAttach", "src/BKUnit.c:BKUnitAttach", "src/BKContext.c:BKContextGenerate"]}
{"id": "C96", "title": "A song is the sum of its tracks played alone", "statement": "Take the tracks of a song apart: play each one alone in a context of its own, with the calls on this track and on the instruments at the same times. Then in every frame and channel the sample of the song is the sum of the samples of these contexts, up to rounding (at most one less, at most one more per track), as long as no sample is so loud that it is clipped. More precisely, there are changes of the level for each track, which depend only on the calls on it and on instruments, and the song is what is heard if all of them are added up. What a track is doing does not depend on other tracks, even if they use the same instruments and samples.", "quantifier": "for all songs (programs, requests, clocks, calls and their times), all numbers of tracks for the exact statement and up to 32 tracks for samples, every frame and channel", "why_tests_cant": "tracks share instruments, lists of states, the buffer and the time of the context; tests play one track, or compare whole songs to recordings in which small influences of tracks on each other are not noticed", "anchors": ["src/BKContext.c:BKContextGenerate", "src/BKContext.c:BKContextRun", "src/BKTrack.c:BKTrackTick", "src/BKInstrument.c:BKInstrumentSetSequence", "src/BKInstrument.c:BKInstrumentStateSetInstrument", "src/BKBuffer.c:BKBufferRead", "src/BKBuffer.h:BKBufferAddPulse"]}
{"id": "C97", "title": "Data loaded from files is what the file contains", "statement": "A data object that loads a WAVE file has the number of frames, the number of channels, the sample rate and the amplitudes that the file contains; one that loads raw data has the samples from where the file stands to its end. Nothing else changes. If loading fails, nothing changes at all. Whatever a file contains, loading stays within the memory that was allocated, and only files are accepted whose frames could also be set. Memory that the object had before is given back, as is all memory when the object is disposed of, and units that play the object play the new frames.", "quantifier": "for all files (any bytes, any position), all objects with whatever they had before, all contents of allocated memory, both kinds of machine", "why_tests_cant": "loading depends on every byte of the header, on ownership of earlier frames, and on who uses the object; tests load a file of their own once and do not see memory that is lost or overwritten", "anchors": ["src/BKData.c:BKDataLoadWAVE", "src/BKData.c:BKDataLoadRaw", "src/BKData.c:BKDataSetData", "src/BKWaveFileReader.c:BKWaveFileReaderReadHeader", "src/BKWaveFileReader.c:BKWaveFileReaderReadFrames", "src/BKData.c:BKDataDisposeObject"]}
{"id": "C98", "title": "A note plays the sequences of its instrument as they were written", "statement": "When a note is played after silence on a track with an instrument, every sequence of the instrument starts from its beginning and moves on with the ticks of the track, each as if it were the only one. While the note is held, a value sequence shows its values in order, one per firing of the instrument divider, the first firing being on the first tick, then repeats its sustain range for as long as the note is held, or stays at its last value if it has none. After release it shows the values behind the sustain range. If one sequence has a sustain range the note does not end by itself. With value sequences only, the track is muted exactly when all of them are past their last value, neither earlier nor later.", "quantifier": "for all states reachable by legal calls, all instruments (any number and combination of sequences, lengths, sustain ranges), dividers, notes, and numbers of ticks before and after the release", "why_tests_cant": "the values at a tick depend on phase, divider, length and sustain range of up to four sequences that share counters; tests listen to one instrument for a few ticks", "anchors": ["src/BKTrack.c:BKTrackSetNote", "src/BKTrack.c:BKTrackTick", "src/BKTrack.c:BKTrackInstrumentAttack", "src/BKTrack.c:BKTrackInstrumentRelease", "src/BKInstrument.c:BKInstrumentStateTick", "src/BKInstrument.c:BKInstrumentStateSetPhase", "src/BKSequence.c:BKSequenceFuncSimpleStep", "src/BKSequence.c:BKSequenceFuncSimpleSetPhase"]}
{"id": "C99", "title": "Settings made of several values are read back as they were set", "statement": "Effects, arpeggio, instrument, sample, sample range and sustain range of a track are read back as they were set: an effect with its values limited to what is allowed, an arpeggio with its first 8 notes, ranges as positions in the sample, where negative numbers count from the end. They read the same whatever is done afterwards with the track, its instruments or other tracks, ticks and rendering included, until they are set again, the track is cleared or reset, or the instrument is detached or disposed of. Reading into a buffer of a given size fills this size with the numbers followed by zeros and writes nothing behind it.", "quantifier": "for all states reachable by legal calls, all values, all sequences of later calls on any tracks and instruments, all buffers and sizes", "why_tests_cant": "a value may be changed by any of dozens of later calls, and scaled differently when set and when read; tests read back one or two values right after setting them", "anchors": ["src/BKTrack.c:BKTrackSetEffect", "src/BKTrack.c:BKTrackGetEffect", "src/BKTrack.c:BKTrackSetPtrObj", "src/BKTrack.c:BKTrackGetPtrObj", "src/BKTrack.c:BKTrackSetPtr", "src/BKTrack.c:BKTrackSetInstrument", "src/BKUnit.c:BKUnitGetPtr", "src/BKUnit.c:BKUnitSetPtr", "src/BKUnit.c:BKUnitUpdateSampleRange", "src/BKUnit.c:BKUnitUpdateSampleSustainRange"]}
{"id": "C100", "title": "A track follows the data object that it plays", "statement": "A track that plays a data object as waveform or sample plays its present contents: after BKDataSetFrames on the object all tracks that play it read the new frames from then on, with the period that the note needs for the new number of frames, and tracks with other data are not changed at all. After BKDataDetach or BKDispose on the object no track has it any more, and those that played it play nothing. No sequence of such calls reads frames of an object that is gone.", "quantifier": "for all sequences of legal calls on any number of tracks, instruments and data objects, whichever tracks play whichever objects in whichever way", "why_tests_cant": "which tracks follow depends on what was set, replaced, cleared or attached before on each of them; tests change the frames of one object played by one fresh track and do not look at the pitch", "anchors": ["src/BKData.c:BKDataSetFrames", "src/BKData.c:BKDataResetStates", "src/BKData.c:BKDataDetach", "src/BKTrack.c:BKTrackSampleDataStateCallback", "src/BKTrack.c:BKTrackInitGeneric", "src/BKTrack.c:BKTrackClear", "src/BKUnit.c:BKUnitSampleDataStateCallback", "src/BKUnit.c:BKUnitTrySetData", "src/BKUnit.c:BKUnitClear"]}
{"id": "C101", "title": "Seconds are converted to times as exactly as times can be", "statement": "BKTimeFromSeconds gives, for any number of seconds that is not negative, a time less than 2^-20 samples from the exact one (for up to 2^33 samples, 24 hours at the highest rate; for longer times one part in 2^53 more). What is a whole number of 2^-20 samples is exact, more seconds never give less time, and builds for 32 and for 64 bits give the same time as far as it fits. The clock that a context starts with has a period of a 240th of a second cut to 2^-20 samples, so after any number of ticks it is off by at most 2^-20 samples for each.", "quantifier": "for all doubles that are not negative, all sample rates, all numbers of ticks", "why_tests_cant": "the result depends on how the product of the rate and the seconds is rounded, which differs for every pair; tests convert one second", "anchors": ["src/BKContext.h:BKTimeFromSeconds", "src/BKContext.c:BKContextUpdateMasterClocks", "src/BKContext.c:BKContextInit"]}
{"id": "C102", "title": "Samples are heard frame by frame at the pitch of the note, once, round and round, or back and forth", "statement": "A track that plays a sample, is not muted and has no running effect adds one step per output frame and channel: from the level of the sample frame before to that of the frame now, both scaled by the volume that is set. The position starts where it was and moves on at every output frame by the speed of the pitch that is set, which for whole notes is 2^((n-48)/12) frames, backwards if the range of the sample is reversed. So it is for however long the track is rendered and in whatever parts. Without repeat the sample ends when it leaves the last (backwards: first) frame, and nothing is heard after that; repeated it goes round without a gap or drift, for ever; back and forth it plays all frames forwards and then all but the first backwards.", "quantifier": "for all call histories and songs, all samples, ranges, notes, pitches, volumes, all durations and their divisions, all positions and speeds", "why_tests_cant": "position and fraction depend on how often and in which parts has been rendered; a test hears a few frames of one sample at one pitch", "anchors": ["src/BKUnit.c:BKUnitRunSample", "src/BKUnit.c:BKUnitResetSample", "src/BKUnit.c:BKUnitWrapSamplePhase", "src/BKTrack.c:BKTrackUpdateUnitNote", "src/BKTone.c:BKLog2PeriodLookup"]}
{"id": "C103", "title": "A held sample stays in its sustain range", "statement": "As long as a sample with a sustain range has not been released, it is played up to the end of the range and from then on stays in the range, for ever and whatever its repeat mode; at the speed it has been recorded at the range is repeated without a gap. After the release what is behind the range is played.", "quantifier": "for all samples, sustain ranges, positions, speeds in both directions, repeat modes and numbers of output frames", "why_tests_cant": "where the position lands behind the end of the range depends on the fractions of the speed; a test holds one range for a moment", "anchors": ["src/BKUnit.c:BKUnitRunSample", "src/BKUnit.c:BKUnitUpdateSampleSustainRange", "src/BKUnit.c:BKUnitSetAttr"]}
{"id": "C104", "title": "Vibrato swings around the note and tremolo below the volume", "statement": "A track with vibrato sets at every tick the period of its note moved by the vibrato: it begins at the note, rises in straight lines to the depth above it, goes back, down to the depth below it, and back, each in the given number of steps, one step every so many ticks as the effect divider says, again and again without drift. A track with tremolo gives to its channels at every tick its volume lowered by an amplitude of the same shape: it begins at the full volume, is lowered by the depth twice in a period, and is never raised.", "quantifier": "for all call histories, all notes and volumes, depths, numbers of steps, effect dividers, sample rates and numbers of ticks", "why_tests_cant": "whether the swing stays centred and does not drift shows only after many periods and for step counts that do not divide the depth; a test looks at one period of one setting", "anchors": ["src/BKTrack.c:BKTrackSetEffect", "src/BKTrack.c:BKTrackTick", "src/BKTrack.c:BKTrackUpdateUnitNote", "src/BKTrack.c:BKTrackUpdateUnitVolume", "src/BKInterpolation.c:BKIntervalStateStep", "src/BKInterpolation.c:BKIntervalStateSetDeltaAndSteps"]}
{"id": "C105", "title": "Panning slides move a sound evenly from one place to another", "statement": "A stereo track whose panning slides gives to its two channels at every tick the volumes of the place that the slide has reached: the channel on whose side the sound is has the full volume, the other one a share of it that falls to silence at the outermost place. The slide starts at the first place, stays between both, never turns back, keeps near the straight line, and has arrived after the given number of steps, one every so many ticks as the effect divider says.", "quantifier": "for all call histories, volumes, places, numbers of steps, effect dividers and numbers of ticks", "why_tests_cant": "rounding of the slide and of the shares depends on both ends and the number of steps; a test looks at one slide", "anchors": ["src/BKTrack.c:BKTrackSetAttrInt", "src/BKTrack.c:BKTrackTick", "src/BKTrack.c:BKTrackUpdateUnitVolume", "src/BKInterpolation.h:BKSlideStateStep", "src/BKInterpolation.c:BKSlideStateSetValueAndSteps"]}
{"id": "C106", "title": "Effects run side by side without disturbing each other", "statement": "A stereo track that glides between notes, fades between volumes, sweeps between places and swings with vibrato and tremolo, all at once and each in its own number of steps, sets at every tick the period of the note reached by the glide moved by the vibrato, and gives to its channels the volume reached by the fade lowered by the tremolo and shared out as the place reached by the sweep says. Each effect takes exactly the values it takes alone.", "quantifier": "for all call histories before, all notes, volumes, places, depths, all five numbers of steps, effect dividers, sample rates and numbers of ticks", "why_tests_cant": "the number of combinations of effects and their lengths is the product of the cases of each; tests try effects one at a time", "anchors": ["src/BKTrack.c:BKTrackSetAttrInt", "src/BKTrack.c:BKTrackSetEffect", "src/BKTrack.c:BKTrackTick", "src/BKTrack.c:BKTrackUpdateUnitNote", "src/BKTrack.c:BKTrackUpdateUnitVolume"]}
{"id": "C107", "title": "An arpeggio is heard as set", "statement": "Once an arpeggio of one to eight intervals is set on a playing track, with the number of ticks each is to last, every tick sets the period of the note of the track moved by the interval of that tick: each interval for that number of ticks, in order, over and over, from the first tick on. While the track glides and has a vibrato, the interval is added to the note that the glide has reached and to the vibrato, and neither these nor the volume effects are disturbed by it.", "quantifier": "for all call histories before, all lists of one to eight intervals (also falling ones), all dividers, sample rates, waveforms with a fixed number of phases, and numbers of ticks; with effects: all their arguments as in C106", "why_tests_cant": "what is heard at a tick depends on the dividers' counters, on the position left behind by an earlier arpeggio and on whether the period is renewed; wrong notes appear only for some histories and far from the beginning", "anchors": ["src/BKTrack.c:BKTrackSetPtrObj", "src/BKTrack.c:BKTrackArpeggioSetNotes", "src/BKTrack.c:BKTrackArpeggioTick", "src/BKTrack.c:BKTrackTick", "src/BKTrack.c:BKTrackUpdateUnitNote"]}
{"id": "C108", "title": "An instrument is heard as written", "statement": "A note is played on a silent track that has an instrument of value sequences and no other effects, and some ticks go by. As long as the instrument has not ended the note, the period of the unit is that of the note moved by the pitch sequence and the pitch of the track; both channel volumes are those of the track's volume, scaled by the volume sequence and the master volume, at the place given by the track's panning and the panning sequence; the duty cycle is that of its sequence, or the track's where it says 0. Each sequence stands at the value written for the number of times its divider has fired. Missing sequences change nothing. After the release the same holds with the values behind the sustain ranges. If a sequence has a sustain range, the note does not end by itself.", "quantifier": "for all call histories before, all instruments of value sequences (any of the four, sustain ranges anywhere), all dividers, notes, volumes, pannings, pitches, sample rates, waveforms with a fixed number of phases, and numbers of ticks", "why_tests_cant": "it combines four sequences, a divider, flags for pending updates and values left behind by earlier instruments; an update missed in one combination is heard only for some histories", "anchors": ["src/BKTrack.c:BKTrackSetNote", "src/BKTrack.c:BKTrackTick", "src/BKTrack.c:BKTrackInstrumentTick", "src/BKTrack.c:BKTrackInstrumentUpdateFlags", "src/BKTrack.c:BKTrackUpdateUnitNote", "src/BKTrack.c:BKTrackUpdateUnitVolume", "src/BKTrack.c:BKTrackUpdateUnitDutyCycle", "src/BKInstrument.c:BKInstrumentStateTick", "src/BKSequence.c:BKSequenceFuncSimpleStep"]}
{"id": "C109", "title": "An ADSR envelope is heard in the loudness of the note", "statement": "A note is played on a silent track whose instrument has an ADSR envelope and no other effects. After every number of ticks the note sounds at its own pitch and place, and both channel volumes are those of the track scaled by a level that rises from where the envelope was left to the maximum within the attack ticks, falls to the sustain level within the decay ticks and then stays there; rise and fall are straight lines (within 2 of 32767) if they take at most 32768 ticks. The note does not end by itself. Whenever it is released, the level falls from where it is to silence within the release ticks, again on a straight line, and exactly then the track is muted. The instrument divider plays no part: the times count in ticks.", "quantifier": "for all call histories before, all attack, decay and release times below 2^31, sustain levels, starting levels, times of release, numbers of ticks, dividers, notes, volumes, pannings, pitches, sample rates and waveforms with a fixed number of phases", "why_tests_cant": "the times are unbounded and a release may come at any moment of rise, fall or hold; the levels pass through flags and caches of the track before they reach the unit", "anchors": ["src/BKInstrument.c:BKInstrumentSetEnvelopeADSR", "src/BKSequence.c:BKSequenceFuncEnvelopeStep", "src/BKSequence.c:BKSequenceFuncEnvelopeSetPhase", "src/BKTrack.c:BKTrackTick", "src/BKTrack.c:BKTrackInstrumentTick", "src/BKTrack.c:BKTrackUpdateUnitVolume", "src/BKInstrument.c:BKInstrumentStateTick", "src/BKInstrument.c:BKInstrumentStateSetPhase"]}
{"id": "C110", "title": "Instruments stay within the values written for them", "statement": "Whatever calls are made, in whatever order, the volume, panning and pitch that an instrument gives to a track lie at any time between the lowest and the highest value written for the sequence or envelope, 0 included. Without a sequence the volume is left as it is, and nothing is added to panning and pitch. So an instrument whose volumes lie in 0..maximum never makes a track louder than its own volume says, as long as no volume slide, panning slide or tremolo is running and the track does not ignore its volume.", "quantifier": "all call histories on tracks and instruments, all sequences and envelopes, all bounds that include 0, all moments", "why_tests_cant": "a level is computed step by step from the level before, sequences are replaced and instruments changed while a note sounds, and every interleaving of such calls with notes, releases, mutes and ticks counts", "anchors": ["src/BKSequence.c:BKSequenceFuncEnvelopeStep", "src/BKSequence.c:BKSequenceFuncEnvelopeSetPhase", "src/BKSequence.c:BKSequenceFuncEnvelopeSetValue", "src/BKSequence.c:BKSequenceFuncSimpleStep", "src/BKInstrument.c:BKInstrumentStateSetPhase", "src/BKInstrument.c:BKInstrumentSetSequence", "src/BKInstrument.c:BKInstrumentSetEnvelope", "src/BKTrack.c:BKTrackUpdateUnitVolume"]}
{"id": "C111", "title": "An ADSR envelope and sequences are heard together", "statement": "After any calls, a note is played on a silent stereo track whose instrument has an ADSR envelope for the volume and, for panning, pitch and duty cycle, value sequences or nothing. The loudness takes the same course as with the envelope alone: it rises to the maximum within the attack ticks, falls to the sustain level within the decay ticks and stays there, and the instrument divider does not change it. Place, pitch and duty cycle are those written in the sequences, which advance when the instrument divider fires. After the release the loudness falls to silence within the release ticks while the sequences play their values behind the sustain range. The note ends, and the track is muted, exactly when the release ticks are over and every sequence is past its last value.", "quantifier": "all call histories, all ADSR times and sustain levels, all value sequences and sustain ranges, all instrument dividers, all notes and hold and release lengths", "why_tests_cant": "two clocks run beside each other, the envelope's own steps and the divider, and the end of the note depends on both; tests can try only a few of the combinations of lengths", "anchors": ["src/BKSequence.c:BKSequenceFuncEnvelopeStep", "src/BKSequence.c:BKSequenceFuncSimpleStep", "src/BKInstrument.c:BKInstrumentStateTick", "src/BKInstrument.c:BKInstrumentStateSetPhase", "src/BKInstrument.c:BKInstrumentSetEnvelopeADSR", "src/BKTrack.c:BKTrackTick", "src/BKTrack.c:BKTrackUpdateUnit"]}
{"id": "C112", "title": "Arpeggios and instruments are heard together", "statement": "After any calls, an arpeggio of one to eight intervals is set on a silent stereo track with an instrument of value sequences, with the number of ticks each interval is to last, and a note is played. At every tick the period is that of the note moved by the interval of that tick and by the pitch sequence of the instrument as far as the instrument divider has let it advance: the intervals each for their number of ticks, in order, over and over, from the first. Volume, panning and duty cycle are those of the instrument, as without arpeggio. After the release the arpeggio goes on where it was, while the sequences play their values behind the sustain range.", "quantifier": "all call histories, all arpeggios and arpeggio dividers, all value sequences, sustain ranges and instrument dividers, all notes and hold and release lengths", "why_tests_cant": "the arpeggio and the sequences have clocks of their own that are begun anew at different moments, and every combination of lengths gives another course; each attack, release and tick also tells the track to update its parts, so that one can be left out only in some combinations", "anchors": ["src/BKTrack.c:BKTrackTick", "src/BKTrack.c:BKTrackArpeggioTick", "src/BKTrack.c:BKTrackArpeggioSetNotes", "src/BKTrack.c:BKTrackUpdateUnitNote", "src/BKTrack.c:BKTrackSetNote", "src/BKInstrument.c:BKInstrumentStateTick", "src/BKSequence.c:BKSequenceFuncSimpleStep"]}
{"id": "C113", "title": "A melody played legato runs through the instrument once", "statement": "After any calls, notes are played one after the other on a silent stereo track whose instrument has a sequence with a sustain range, each with any number of ticks and none released before the next. The track then sounds with the pitch of the last note, while volume, panning, pitch offset and duty cycle are what the sequences give after all the ticks since the first note: as if the last note had been held all the time. Only a note that is played in silence begins the instrument. When the last note is released, each sequence plays its values behind the sustain range, beginning with what it showed at the end of the melody.", "quantifier": "all call histories, all melodies (number of notes, pitches, ticks on each) and release lengths, all value sequences, sustain ranges and instrument dividers", "why_tests_cant": "the sequences, the divider and the flags of parts to update are carried over every note of the melody, in every state the previous one has left them in; melodies of every length and rhythm cannot be listed", "anchors": ["src/BKTrack.c:BKTrackSetNote", "src/BKTrack.c:BKTrackTick", "src/BKTrack.c:BKTrackUpdateUnitNote", "src/BKInstrument.c:BKInstrumentStateTick", "src/BKSequence.c:BKSequenceFuncSimpleStep"]}
{"id": "C114", "title": "Without two channels instruments are heard alike on all channels", "statement": "On a context with one channel, or with more than two, a note or a melody played legato with an instrument that has a sustain range sounds with the period, volume and duty cycle its sequences give at that tick, held or released. All channels have the same volume: neither the panning of the track nor a panning sequence makes a mono track softer or moves a track between more than two channels.", "quantifier": "all call histories, numbers of channels other than two, melodies, value sequences (panning sequences included), sustain ranges, instrument dividers and release lengths", "why_tests_cant": "panning sequences advance and ask for updates as on stereo contexts, so that a volume reduced for one side could be left over in any of the states the sequences and the calls before can lead to", "anchors": ["src/BKTrack.c:BKTrackUpdateUnitVolume", "src/BKTrack.c:BKTrackAttach", "src/BKTrack.c:BKTrackSetNote", "src/BKTrack.c:BKTrackTick", "src/BKUnit.c:BKUnitSetAttr", "src/BKInstrument.c:BKInstrumentStateTick"]}
{"id": "C115", "title": "An arpeggio goes on over a legato melody", "statement": "An arpeggio of one to eight intervals is set on a silent stereo track whose instrument has a sustain range, and notes are played one after the other without a release between them, each with any number of ticks. The intervals follow one another over the whole melody, each for its number of ticks, counted from the first note: a further note changes the pitch the intervals are added to, but neither repeats nor skips one. Volume, panning and duty cycle are those of C113.", "quantifier": "all call histories, all arpeggios and arpeggio dividers, all melodies, value sequences, sustain ranges and instrument dividers", "why_tests_cant": "notes may fall on every place within the arpeggio and within the current interval, and the arpeggio, the sequences and the notes have periods of their own; tests try a few of these combinations", "anchors": ["src/BKTrack.c:BKTrackSetNote", "src/BKTrack.c:BKTrackArpeggioTick", "src/BKTrack.c:BKTrackArpeggioSetNotes", "src/BKTrack.c:BKTrackUpdateUnitNote", "src/BKTrack.c:BKTrackTick", "src/BKInstrument.c:BKInstrumentStateTick"]}
{"id": "C116", "title": "Phrases do not influence one another", "statement": "After any calls, phrases are played on a silent stereo track whose instrument has a sustain range: each is a melody played legato (C113) that ends with a release, followed by any number of ticks, so that the next phrase may begin while the last one is still dying away. Each phrase is heard with the period, volume, panning and duty cycle its own notes and ticks give, held and released: exactly as if it were the first one played.", "quantifier": "all call histories, all numbers of phrases, melodies and pauses, all value sequences, sustain ranges and instrument dividers", "why_tests_cant": "a phrase may leave the sequences, the dividers, the slides and the flags of the track in any of many states, and the next begins in each of them; tests play a few phrases from a fresh track", "anchors": ["src/BKTrack.c:BKTrackSetNote", "src/BKTrack.c:BKTrackTick", "src/BKTrack.c:BKTrackUpdateUnitNote", "src/BKTrack.c:BKTrackUpdateUnitVolume", "src/BKInstrument.c:BKInstrumentStateSetPhase", "src/BKInstrument.c:BKInstrumentStateTick"]}

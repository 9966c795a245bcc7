{
 "claims": [
  {
   "property": "C01",
   "status": "partial",
   "theorems": [
    "BK.C01_add",
    "BK.C01_sub",
    "BK.C01_addF_partial",
    "BK.C01_addF_refuted",
    "BK.C01_subF_partial",
    "BK.C01_subF_refuted",
    "BK.C01_compare",
    "BK.C01_lessF",
    "BK.C01_greaterF_partial",
    "BK.C01_greaterF_refuted",
    "BK.C01_read",
    "BK.C01_toPeriod"
   ],
   "note": "Addition, subtraction, comparison and reading agree for all times whose result fits. Period arguments near 2^32 (add), above 2^31 (subtract, greater) differ between the builds; negations proved with witnesses."
  },
  {
   "property": "C02",
   "status": "partial",
   "theorems": [
    "BK.C02_refuted",
    "BK.C02_wrapped_refuted",
    "BK.C02_make64_partial",
    "BK.C02_make64_ok_iff",
    "BK.C02_make32"
   ],
   "note": "Violated on 64-bit builds: overflow exactly from 2048 samples on (iff theorem). Holds on 32-bit builds for every sample count."
  },
  {
   "property": "C03",
   "status": "partial",
   "theorems": [
    "BK.C03_refuted",
    "BK.C03_null_refuted",
    "BK.C03_documented_partial",
    "BK.C03_safe_iff"
   ],
   "note": "Violated: 0x1000 reads outside the table, 0xFFFF9000 yields NULL. All documented codes are right; complete iff classification of the safe 32-bit values is proved."
  },
  {
   "property": "C04",
   "status": "proved",
   "theorems": [
    "BK.C04_hooks",
    "BK.C04_frees",
    "BK.C04_no_effect",
    "BK.C04_disposable",
    "BK.C04_limits"
   ],
   "note": "For every sequence of calls without memory error by the caller. The count is exact including objects made again while they exist, whose first disposal is lost (C04_limits). The dispose functions themselves are opaque."
  },
  {
   "property": "C05",
   "status": "proved",
   "theorems": [
    "BK.C05_memory_safe",
    "BK.C05_memory_safe_checked",
    "BK.C05_read_count"
   ],
   "note": "Arbitrary call sequences, any pulse times and amplitudes, checked and wrapping arithmetic; reads of at most 2^32-1 frames."
  },
  {
   "property": "C06",
   "status": "proved",
   "theorems": [
    "BK.C06_order_independent",
    "BK.C06_same_audio"
   ],
   "note": ""
  },
  {
   "property": "C07",
   "status": "proved",
   "theorems": [
    "BK.C07_exact_gain",
    "BK.C07_no_dc"
   ],
   "note": "For the two built-in step kernels."
  },
  {
   "property": "C08",
   "status": "proved",
   "theorems": [
    "BK.C08_chunked_read",
    "BK.C08_any_division"
   ],
   "note": ""
  },
  {
   "property": "C09",
   "status": "proved",
   "theorems": [
    "BK.C09_saturation",
    "BK.C09_sign"
   ],
   "note": "Exact accumulators; an overload gives 32766/32767 or -32768."
  },
  {
   "property": "C10",
   "status": "proved",
   "theorems": [
    "BK.C10_silence",
    "BK.C10_monotone"
   ],
   "note": "Zero from the 11776th frame on unconditionally; monotone decay when the output is not overloaded."
  },
  {
   "property": "C11",
   "status": "partial",
   "theorems": [
    "BK.C11_refuted",
    "BK.C11_mix_partial",
    "BK.C11_read_partial"
   ],
   "note": "Violated: three simultaneous full-scale pulses overflow. Proved: no overflow while 32767 times the sum of absolute amplitudes fits, and for reads while the unfiltered level stays within 2^30-2."
  },
  {
   "property": "C12",
   "status": "proved",
   "theorems": [
    "BK.C12_exact_end"
   ],
   "note": ""
  },
  {
   "property": "C13",
   "status": "proved",
   "theorems": [
    "BK.C13_no_overshoot"
   ],
   "note": ""
  },
  {
   "property": "C14",
   "status": "partial",
   "theorems": [
    "BK.C14_no_jump_partial",
    "BK.C14_report_partial",
    "BK.C14_report_refuted"
   ],
   "note": "The fixed-point value is kept exactly. The reported value can jump because the rounding bias changes (witness 1 to 4); it moves by at most one unit when both biases are below one unit."
  },
  {
   "property": "C15",
   "status": "partial",
   "theorems": [
    "BK.C15_refuted",
    "BK.C15_pitch_refuted",
    "BK.C15_report_partial"
   ],
   "note": "Violated for slow falling slides: a finished slide from 1 to 0 in 1000 steps reports 3. Proved for rising slides and for falling slides of at least 256 raw units per step."
  },
  {
   "property": "C16",
   "status": "partial",
   "theorems": [
    "BK.C16_osc_partial",
    "BK.C16_osc_documented",
    "BK.C16_osc_refuted",
    "BK.C16_slide_partial",
    "BK.C16_documented_range",
    "BK.C16_positive_range",
    "BK.C16_steps_refuted",
    "BK.C16_range_refuted",
    "BK.C16_negative_refuted"
   ],
   "note": "Violated for 2^23 steps, for declared maxima that are powers of two (full-range slide) and for negative maxima. Proved for all other documented arguments and all call sequences."
  },
  {
   "property": "C17",
   "status": "proved",
   "theorems": [
    "BK.C17_wave",
    "BK.C17_quarters",
    "BK.C17_shape",
    "BK.C17_periodic"
   ],
   "note": "Closed form for all ticks from a start at zero; after a change in mid-phase the period is exact from the end of the running phase on."
  },
  {
   "property": "C18",
   "status": "partial",
   "theorems": [
    "BK.C18_range",
    "BK.C18_report_partial",
    "BK.C18_report_refuted"
   ],
   "note": "Internal value always in range. Reported value in range for non-negative amplitudes; refuted for negative ones."
  },
  {
   "property": "C19",
   "status": "proved",
   "theorems": [
    "BK.C19_period_exact",
    "BK.C19_saturates",
    "BK.C19_range"
   ],
   "note": "Lookup equals the exact integer interpolation for every pitch and rate."
  },
  {
   "property": "C20",
   "status": "proved",
   "theorems": [
    "BK.C20_monotone"
   ],
   "note": ""
  },
  {
   "property": "C21",
   "status": "proved",
   "theorems": [
    "BK.C21_total",
    "BK.C21_monotone",
    "BK.C21_octaves"
   ],
   "note": ""
  },
  {
   "property": "C22",
   "status": "proved",
   "theorems": [
    "BK.C22_octave"
   ],
   "note": "Defect at most 8 sample-rate units and at most a 31st of the period."
  },
  {
   "property": "C23",
   "status": "proved",
   "theorems": [
    "BK.C23_held",
    "BK.C23_once",
    "BK.C23_release",
    "BK.C23_release_at_end",
    "BK.C23_divided"
   ],
   "note": "Held index, once-through index, release from any state and divided sequences in closed form, for every number of ticks."
  },
  {
   "property": "C24",
   "status": "partial",
   "theorems": [
    "BK.C24_envelope_partial",
    "BK.C24_envelope_overflow",
    "BK.C24_envelope_usual",
    "BK.C24_envelope_refuted",
    "BK.C24_simple_partial",
    "BK.C24_simple_refuted"
   ],
   "note": "Violated for value sequences of 2^30 values and envelopes of 2^29 points, where the allocation size wraps. Proved below 2^29 values and 2^28 points; an envelope can then only fail by signed overflow, and not when the value set fits its scale."
  },
  {
   "property": "C25",
   "status": "proved",
   "theorems": [
    "BK.C25_terminates",
    "BK.C25_rejected",
    "BK.C25_rejection_needed"
   ],
   "note": "Every call returns for every envelope that creation accepts, and the rejection of all-zero sustain loops is shown to be needed."
  },
  {
   "property": "C26",
   "status": "proved",
   "theorems": [
    "BK.C26_hull",
    "BK.C26_monotone",
    "BK.C26_exact",
    "BK.C26_straight",
    "BK.C26_steps_refuted"
   ],
   "note": "For tick counts below 2^31; C26_steps_refuted shows that the claim fails beyond."
  },
  {
   "property": "C27",
   "status": "proved",
   "theorems": [
    "BK.C27_range",
    "BK.C27_attack",
    "BK.C27_release",
    "BK.C27_ticks_refuted"
   ],
   "note": "For tick counts below 2^31; C27_ticks_refuted shows that the claim fails beyond."
  },
  {
   "property": "C28",
   "status": "partial",
   "theorems": [
    "BK.C28_refuted",
    "BK.C28_partial"
   ],
   "note": "Violated: a copied envelope shares its point array with the original (use after free, double free). Proved for plain value sequences."
  },
  {
   "property": "C29",
   "status": "proved",
   "theorems": [
    "BK.C29_unchanged",
    "BK.C29_which"
   ],
   "note": ""
  },
  {
   "property": "C30",
   "status": "partial",
   "theorems": [
    "BK.C30_attack",
    "BK.C30_release",
    "BK.C30_again",
    "BK.C30_refuted",
    "BK.C30_held_refuted"
   ],
   "note": "Violated as stated: a release after the note has ended starts the release part again and notifies again (C30_refuted), and sequences without sustain part end while the note is held (C30_held_refuted). Proved: one notification per attack and per release of a playing note, exactly when every sequence has ended."
  },
  {
   "property": "C31",
   "status": "proved",
   "theorems": [
    "BK.C31_detach",
    "BK.C31_dispose"
   ],
   "note": ""
  },
  {
   "property": "C32",
   "status": "proved",
   "theorems": [
    "BK.C32_units",
    "BK.C32_refused"
   ],
   "note": ""
  },
  {
   "property": "C33",
   "status": "partial",
   "theorems": [
    "BK.C33_clocks_partial",
    "BK.C33_refuted",
    "BK.C33_self_refuted"
   ],
   "note": "Violated when the clock given as successor belongs to another context or is the clock itself (witnesses). Proved for every history whose successors are clocks of the same context."
  },
  {
   "property": "C34",
   "status": "partial",
   "theorems": [
    "BK.C34_refuted",
    "BK.C34_attach_partial"
   ],
   "note": "Violated: an attach refused because of its successor argument leaves the clock marked as owned by the context. Proved that nothing else changes, and nothing at all when refused because already attached."
  },
  {
   "property": "C35",
   "status": "proved",
   "theorems": [
    "BK.C35_schedule",
    "BK.C35_every_dth",
    "BK.C35_reset",
    "BK.C35_refuted"
   ],
   "note": "For divider values below 2^31; C35_refuted shows that larger values fire on every tick."
  },
  {
   "property": "C36",
   "status": "partial",
   "theorems": [
    "BK.C36_refuted",
    "BK.C36_dispose_partial"
   ],
   "note": "Violated: disposing a clock with at least one divider never returns, for any amount of fuel. Proved for a clock without dividers."
  },
  {
   "property": "C37",
   "status": "proved",
   "theorems": [
    "BK.C37_no_drift",
    "BK.C37_in_step"
   ],
   "note": "For any schedule of calls; the clock must not choose its next time itself."
  },
  {
   "property": "C38",
   "status": "partial",
   "theorems": [
    "BK.C38_refuted_endless",
    "BK.C38_refuted_silent",
    "BK.C38_attach_partial"
   ],
   "note": "Violated: a clock attached while the context is running makes rendering hang or stay silent (C38_refuted_endless, C38_refuted_silent). Attaching before the first rendering or after a reset is proved."
  },
  {
   "property": "C39",
   "status": "partial",
   "theorems": [
    "BK.C39_exact_partial",
    "BK.C39_refuted"
   ],
   "note": "Violated when a context with clocks generates before its first unit is attached (C39_refuted). Proved for all contexts that have a unit from the start, with any clocks, callbacks, waveforms and samples in the limits of UCore.Moderate, up to 2^40 frames."
  },
  {
   "property": "C40",
   "status": "partial",
   "theorems": [
    "BK.C40_block_size_partial",
    "BK.C40_refuted"
   ],
   "note": "Violated without units (C40_refuted). Proved with units for any clocks, callbacks that change units and waveforms: same samples and same state."
  },
  {
   "property": "C41",
   "status": "partial",
   "theorems": [
    "BK.C41_clocked_partial",
    "BK.C41_refuted",
    "BK.C41_refuted_heard"
   ],
   "note": "Violated without clocks: a unit attached after T frames is silent until frame 4096 (C41_refuted, C41_refuted_heard). With clocks it starts where the clocks are."
  },
  {
   "property": "C42",
   "status": "proved",
   "theorems": [
    "BK.C42_sanitised",
    "BK.C42_fixed"
   ],
   "note": ""
  },
  {
   "property": "C43",
   "status": "partial",
   "theorems": [
    "BK.C43_units",
    "BK.C43_clocks_partial",
    "BK.C43_refuted"
   ],
   "note": "Proved for units. Violated for clocks whose attaching was refused (C43_refuted); proved for the others."
  },
  {
   "property": "C44",
   "status": "partial",
   "theorems": [
    "BK.C44_pulses_add_up_mod",
    "BK.C44_pulses_add_up_partial",
    "BK.C44_refuted"
   ],
   "note": "Modulo 65536 for all histories (C44_pulses_add_up_mod); exactly as long as no single step exceeds the 16-bit pulse range. Violated for larger steps, e.g. changing the duty cycle from 8 to 15 at full volume (C44_refuted)."
  },
  {
   "property": "C45",
   "status": "proved",
   "theorems": [
    "BK.C45_pulse_train",
    "BK.C45_division"
   ],
   "note": ""
  },
  {
   "property": "C46",
   "status": "partial",
   "theorems": [
    "BK.C46_in_range_partial",
    "BK.C46_refuted"
   ],
   "note": "Violated by a release with immediate jump on a unit that plays a waveform but still has the sustain range of an earlier sample (C46_refuted); proved without such calls."
  },
  {
   "property": "C47",
   "status": "proved",
   "theorems": [
    "BK.C47_within_volume",
    "BK.C47_silence",
    "BK.C47_silent_sample",
    "BK.C47_equal_channels"
   ],
   "note": ""
  },
  {
   "property": "C48",
   "status": "partial",
   "theorems": [
    "BK.C48_noise_alive_partial",
    "BK.C48_refuted"
   ],
   "note": "The state is never zero and both levels keep occurring without phase wrap; violated for a phase wrap of 2, which is constant (C48_refuted)."
  },
  {
   "property": "C49",
   "status": "partial",
   "theorems": [
    "BK.C49_noise_period_partial",
    "BK.C49_refuted"
   ],
   "note": "The period is w, except that the first block after setting the phase wrap has w-1 pulses (C49_refuted)."
  },
  {
   "property": "C50",
   "status": "partial",
   "theorems": [
    "BK.C50_set_get_partial",
    "BK.C50_others_kept",
    "BK.C50_refused",
    "BK.C50_volume_of_all",
    "BK.C50_refuted"
   ],
   "note": "Violated by the value -2147483648 for periods (signed overflow) and by BK_FLAG_RELEASE without sustain range (C50_refuted); proved otherwise."
  },
  {
   "property": "C51",
   "status": "partial",
   "theorems": [
    "BK.C51_in_bounds_partial",
    "BK.C51_refuted_turn",
    "BK.C51_refuted_release",
    "BK.C51_refuted_sustain"
   ],
   "note": "Violated in three ways (C51_refuted_turn, C51_refuted_release, C51_refuted_sustain). Proved for all histories whose samples stay within the limits of UCore.Moderate."
  },
  {
   "property": "C52",
   "status": "proved",
   "theorems": [
    "BK.C52_plays_once",
    "BK.C52_frames_left",
    "BK.C52_starts_at_first",
    "BK.C52_division"
   ],
   "note": "For samples within the limits of UCore.Moderate (needed for memory safety, C51)."
  },
  {
   "property": "C53",
   "status": "partial",
   "theorems": [
    "BK.C53_fires_partial",
    "BK.C53_arpeggio_partial",
    "BK.C53_effects_partial",
    "BK.C53_instrument_partial",
    "BK.C53_refuted"
   ],
   "note": "Proved for dividers of at least 1: which ticks fire, and that arpeggio, effects and instrument advance exactly on these. Divider values of 0 or less are accepted and stop the effect for good (C53_refuted)."
  },
  {
   "property": "C54",
   "status": "partial",
   "theorems": [
    "BK.C54_set",
    "BK.C54_cycle_partial",
    "BK.C54_restart",
    "BK.C54_refuted"
   ],
   "note": "The notes are cycled in order and restart with a new note; violated for the first note after the arpeggio is changed, which is one of the old arpeggio until the divider fires (C54_refuted)."
  },
  {
   "property": "C55",
   "status": "partial",
   "theorems": [
    "BK.C55_range_partial",
    "BK.C55_note_partial",
    "BK.C55_zero_partial",
    "BK.C55_refuted",
    "BK.C55_master",
    "BK.C55_reached_partial"
   ],
   "note": "Range, silence at volume 0 and the product formula with its rounding are proved for instrument volumes within the documented range; range and silence for every track after any calls (C55_reached_partial). Violated by the triangle wave, which ignores the volume, and by instrument volumes above the maximum (C55_refuted)."
  },
  {
   "property": "C56",
   "status": "proved",
   "theorems": [
    "BK.C56_sides",
    "BK.C56_mirror",
    "BK.C56_monotone",
    "BK.C56_reached",
    "BK.C56_not_stereo"
   ],
   "note": "In stereo contexts; in all others panning has no effect (C56_not_stereo)."
  },
  {
   "property": "C57",
   "status": "partial",
   "theorems": [
    "BK.C57_play",
    "BK.C57_release_partial",
    "BK.C57_mute",
    "BK.C57_ended",
    "BK.C57_refuted"
   ],
   "note": "Proved for all states; violated in that a release after the instrument has ended starts the release phase again (C57_refuted)."
  },
  {
   "property": "C58",
   "status": "partial",
   "theorems": [
    "BK.C58_clear_partial",
    "BK.C58_reset_partial",
    "BK.C58_kept",
    "BK.C58_refuted",
    "BK.C58_reached_partial"
   ],
   "note": "Proved for everything that can be read back except duty cycle and waveform, which are kept or lost (C58_refuted, C58_kept)."
  },
  {
   "property": "C59",
   "status": "partial",
   "theorems": [
    "BK.C59_range",
    "BK.C59_order",
    "BK.C59_sign_partial",
    "BK.C59_peak",
    "BK.C59_silence",
    "BK.C59_refuted"
   ],
   "note": "Range, order, peak and silence for all arrays of frames; signs and strict order unless a frame has the amplitude -32768, where a witness shows that small frames become silent."
  },
  {
   "property": "C60",
   "status": "partial",
   "theorems": [
    "BK.C60_memory_partial",
    "BK.C60_samples_partial",
    "BK.C60_amplitude",
    "BK.C60_refuted_sign",
    "BK.C60_refuted_rest",
    "BK.C60_refuted_size"
   ],
   "note": "For all bytes, formats, channels and contents of the allocated memory: no access outside of memory below 2^28 bytes; samples in order with strictly monotone amplitude, except the signed 8-bit sample -128 (wraps to the other sign) and data of opposite endianness (C61). Frames left uninitialised and the heap overflow at 2^29 bytes are proved as witnesses."
  },
  {
   "property": "C61",
   "status": "partial",
   "theorems": [
    "BK.C61_high_partial",
    "BK.C61_refuted"
   ],
   "note": "The claim is false: proved that exactly the low byte is lost on a little-endian machine, with witnesses for both machines."
  },
  {
   "property": "C62",
   "status": "partial",
   "theorems": [
    "BK.C62_memory_partial",
    "BK.C62_alive_partial",
    "BK.C62_refuted"
   ],
   "note": "All sequences of calls that observe DataOp.Legal (six conditions on callers) neither use freed memory nor free wrongly. Seven sequences that violate one of the conditions each lead to a wrong free, a use after free or a read beyond the end (C62_refuted). Sizes do not overflow; BKDataInitCopy is in C88."
  },
  {
   "property": "C63",
   "status": "partial",
   "theorems": [
    "BK.C63_bound_partial",
    "BK.C63_notify",
    "BK.C63_refuted"
   ],
   "note": "Binding, unbinding and notification proved for all histories in which no two neighbours (apart from those at the begin of the list) unbind during the same notification; a single notification reaches each unit once in any case (C63_notify). Otherwise the list is corrupted (C63_refuted)."
  },
  {
   "property": "C64",
   "status": "partial",
   "theorems": [
    "BK.C64_roundtrip_partial",
    "BK.C64_refuted"
   ],
   "note": "All rates, channels, frames, split into any calls, on both kinds of machine for the reader; on a big-endian machine the writer leaves one field unreversed and the file is refused (C64_refuted)."
  },
  {
   "property": "C65",
   "status": "partial",
   "theorems": [
    "BK.C65_roundtrip_partial"
   ],
   "note": "Like C64, on a little-endian machine; amplitudes are cut to 8 bits as documented."
  },
  {
   "property": "C66",
   "status": "partial",
   "theorems": [
    "BK.C66_header_partial",
    "BK.C66_offset",
    "BK.C66_refuted"
   ],
   "note": "For files that begin at position 0 and for which frames have been appended; C66_offset says what the sizes are otherwise, C66_refuted gives the witnesses (wrong RIFF size at an offset, no header without frames, big-endian field)."
  },
  {
   "property": "C67",
   "status": "partial",
   "theorems": [
    "BK.C67_swapped_partial",
    "BK.C67_refuted"
   ],
   "note": "Proved that rate and channels are swapped in every header written this way; the claim holds only if they are equal (C67_refuted)."
  },
  {
   "property": "C68",
   "status": "partial",
   "theorems": [
    "BK.C68_header_partial",
    "BK.C68_frames_partial",
    "BK.C68_refuted"
   ],
   "note": "Header: any bytes unless the number of channels is 0. Frames: any data if its size is a multiple of the size of one frame of all channels. Division by zero and writes behind the buffer otherwise (C68_refuted)."
  },
  {
   "property": "C69",
   "status": "proved",
   "theorems": [
    "BK.C69_tuning"
   ],
   "note": ""
  },
  {
   "property": "C70",
   "status": "proved",
   "theorems": [
    "BK.C70_sample_tuning"
   ],
   "note": ""
  },
  {
   "property": "C71",
   "status": "partial",
   "theorems": [
    "BK.C71_refuted",
    "BK.C71_attack_partial"
   ],
   "note": "Violated for envelopes with small values only. Proved if the envelope contains a value of at least 8 or close to the duty cycle."
  },
  {
   "property": "C72",
   "status": "proved",
   "theorems": [
    "BK.C72_shift",
    "BK.C72_read",
    "BK.C72_size"
   ],
   "note": ""
  },
  {
   "property": "C73",
   "status": "proved",
   "theorems": [
    "BK.C73_dividers",
    "BK.C73_refused"
   ],
   "note": ""
  },
  {
   "property": "C74",
   "status": "partial",
   "theorems": [
    "BK.C74_safe_partial",
    "BK.C74_usual",
    "BK.C74_noleak",
    "BK.C74_live"
   ],
   "note": "No memory error for all histories; the only possible fault is arithmetic overflow in an envelope, excluded by C74_usual."
  },
  {
   "property": "C75",
   "status": "proved",
   "theorems": [
    "BK.C75_replaced"
   ],
   "note": ""
  },
  {
   "property": "C76",
   "status": "proved",
   "theorems": [
    "BK.C76_undisturbed"
   ],
   "note": ""
  },
  {
   "property": "C77",
   "status": "partial",
   "theorems": [
    "BK.C77_attach_partial",
    "BK.C77_moved_partial",
    "BK.C77_refuted"
   ],
   "note": "Violated: the divider of a track stays attached to the disposed context (C77_refuted). Proved for tracks that are detached first."
  },
  {
   "property": "C78",
   "status": "partial",
   "theorems": [
    "BK.C78_truncated_partial",
    "BK.C78_refuted"
   ],
   "note": "Proved for 16-bit files. For 8-bit files only half of the missing frames are cleared (C78_refuted)."
  },
  {
   "property": "C79",
   "status": "partial",
   "theorems": [
    "BK.C79_skipped_partial",
    "BK.C79_refuted",
    "BK.C79_refuted_format"
   ],
   "note": "Proved for chunks of even size, for any other contents of the file. The padding byte of a chunk of odd size is not skipped (C79_refuted). A format chunk of 18 bytes, or a chunk before it, makes a file unreadable (C79_refuted_format)."
  },
  {
   "property": "C80",
   "status": "partial",
   "theorems": [
    "BK.C80_never_faults_partial",
    "BK.C80_refuted"
   ],
   "note": "Proved for all sequences of calls, of any length, whose arguments keep within TOp.Legal/WOp.Legal (Spec/TrackSafe.lean). Ten sequences of accepted calls outside of these limits fault (C80_refuted)."
  },
  {
   "property": "C81",
   "status": "partial",
   "theorems": [
    "BK.C81_reported_in_range_partial"
   ],
   "note": "Proved for all attributes that are read back, after any calls within the limits of C80. Not without limits: a divider of 0 or less is accepted and reported. The master volume is in range after any calls whatever (C55_master)."
  },
  {
   "property": "C82",
   "status": "partial",
   "theorems": [
    "BK.C82_same_instrument",
    "BK.C82_nothing_lost_partial",
    "BK.C82_heard_is_set_partial",
    "BK.C82_refuted"
   ],
   "note": "Proved for all sequences of calls within the limits of C80, for tracks without a running effect, unless one of the calls in TOp.upsets came last. Setting a pitch, attaching to a context with another rate, and changing the waveform while detached leave an outdated period; so the full statement is false (C82_refuted)."
  },
  {
   "property": "C83",
   "status": "partial",
   "theorems": [
    "BK.C83_exact_partial",
    "BK.C83_block_size_partial",
    "BK.C83_calls_partial",
    "BK.C83_refuted"
   ],
   "note": "Proved for every program whose calls in ticks are not attach, detach or reset, and stay within the limits of C80; tracks are attached and detached between requests, but one stays attached; up to 2^40 frames. Violated if a callback resets a track: the track is rendered again from the beginning of the current block (C83_refuted, on the level of one track)."
  },
  {
   "property": "C84",
   "status": "partial",
   "theorems": [
    "BK.C84_refines_partial",
    "BK.C84_reported_partial",
    "BK.C84_heard_is_set_partial"
   ],
   "note": "Proved for every program whose calls in ticks are not attach, detach or reset, and stay within the limits of C80; tracks are attached and detached between requests, but one stays attached; up to 2^40 frames."
  },
  {
   "property": "C85",
   "status": "partial",
   "theorems": [
    "BK.C85_sound_partial",
    "BK.C85_count_partial",
    "BK.C85_recorded_partial",
    "BK.C85_prefix_partial"
   ],
   "note": "Proved for every program whose calls in ticks are not attach, detach or reset, and stay within the limits of C80; tracks are attached and detached between requests, but one stays attached; up to 2^40 frames. That calls in ticks come at the right time between steps is in C37 and C38, not here."
  },
  {
   "property": "C86",
   "status": "partial",
   "theorems": [
    "BK.C86_performance_partial",
    "BK.C86_order_partial",
    "BK.C86_unique_partial",
    "BK.C86_follows_partial",
    "BK.C86_state_partial"
   ],
   "note": "Proved for every program whose calls in ticks are not attach, detach or reset, and stay within the limits of C80; tracks are attached and detached between requests; the context has a clock before it renders; up to 2^40 frames."
  },
  {
   "property": "C87",
   "status": "partial",
   "theorems": [
    "BK.C87_reached_partial",
    "BK.C87_number_partial",
    "BK.C87_refuted_endless",
    "BK.C87_tick_partial",
    "BK.C87_refuted"
   ],
   "note": "Violated by the code: without clocks it never returns a number, with clocks it delivers frames beyond the time and puts frames between later. Proved: a reached time gives nothing; a returned number means that the time is reached and is the sum of the sizes of the accepted blocks; a refused block ends it. If a clock ticks just at the time, at most 682 frames away, and nothing is rendered beyond, the frames are those that asking for frames gives (C87_tick_partial)."
  },
  {
   "property": "C88",
   "status": "partial",
   "theorems": [
    "BK.C88_data_partial",
    "BK.C88_apart_partial",
    "BK.C88_refuted_data",
    "BK.C88_instrument_partial",
    "BK.C88_refuted_instrument"
   ],
   "note": "Violated by the code: disposing of a copy has no effect, and a copied instrument keeps what was in its memory. Proved: content, independence of data copies, users; for instruments if the memory was cleared before. Sequences share their values (C28)."
  },
  {
   "property": "C89",
   "status": "partial",
   "theorems": [
    "BK.C89_steady_partial",
    "BK.C89_song_partial",
    "BK.C89_in_tune",
    "BK.C89_note_partial",
    "BK.C89_custom_partial",
    "BK.C89_noise_partial",
    "BK.C89_song_custom_partial",
    "BK.C89_song_noise_partial"
   ],
   "note": "Proved for all tracks without running effects whose last changes are not among those that the code does not apply (C82_refuted, e.g. the pitch attribute of a playing note), for square, triangle, sawtooth, sine, custom waveforms without phase wrap, and noise (whose steps are one eighth of the period of the note apart). Samples are covered by C102. Missing: custom waveforms with a phase wrap."
  },
  {
   "property": "C90",
   "status": "partial",
   "theorems": [
    "BK.C90_range",
    "BK.C90_reported",
    "BK.C90_range_kept_partial",
    "BK.C90_refuted_frames",
    "BK.C90_read_only",
    "BK.C90_pitch_taken",
    "BK.C90_refuted_taken"
   ],
   "note": "Violated by the code: setting fewer frames leaves the sustain range beyond their end, and tracks never take over the sustain range of the data though BKData.h says so (C90_refuted_frames, C90_refuted_taken). Proved: everything else, for all sequences of calls."
  },
  {
   "property": "C91",
   "status": "partial",
   "theorems": [
    "BK.C91_levels",
    "BK.C91_near_partial",
    "BK.C91_refuted_order",
    "BK.C91_refuted_sign",
    "BK.C91_refuted_silence",
    "BK.C91_quiet"
   ],
   "note": "Violated by the code: amplitudes are mirrored (order and sign reversed), and with up to 8 bits they are also halved and moved up, so that silence becomes 16383 (C91_refuted_order, C91_refuted_sign, C91_refuted_silence). Proved: safety, range, number of amplitudes, and nearness to the mirrored frames, for any noise."
  },
  {
   "property": "C92",
   "status": "proved",
   "theorems": [
    "BK.C92_tempo",
    "BK.C92_change",
    "BK.C92_report",
    "BK.C92_kernel"
   ],
   "note": "C92_tempo: ticks are exactly the beats of the specification; C92_change: one change, in closed form; C92_report and C92_kernel: attributes."
  },
  {
   "property": "C93",
   "status": "partial",
   "theorems": [
    "BK.C93_fade_partial",
    "BK.C93_glide_partial",
    "BK.C93_refuted",
    "BK.C93_glide_refuted"
   ],
   "note": "Violated by slow falling slides: a fade from 1 to 0 in 600 steps leaves volume 1, even if volume 0 is set at once thereafter (C93_refuted, C93_glide_refuted). Proved for rising slides and for falling slides of at least 256 raw units per step (1/128 of a volume unit, 1/4096 half tone)."
  },
  {
   "property": "C94",
   "status": "partial",
   "theorems": [
    "BK.C94_memory_partial",
    "BK.C94_usual",
    "BK.C94_alone",
    "BK.C94_dispose_refuted",
    "BK.C94_rebind_refuted"
   ],
   "note": "Independence, lists and memory safety are proved for legal calls (C94_memory_partial, C94_alone); absence of overflow if states are cleared before they get another envelope (C94_usual). Violated otherwise: a disposed sequence leaves its states dangling (C94_dispose_refuted), and a state that gets an envelope of another scale jumps or overflows (C94_rebind_refuted)."
  },
  {
   "property": "C95",
   "status": "partial",
   "theorems": [
    "BK.C95_goes_on_partial",
    "BK.C95_kept_partial",
    "BK.C95_again_partial",
    "BK.C95_refuted",
    "BK.C95_again_refuted"
   ],
   "note": "Proved for all songs as in C83, if another track stays attached. Violated for the only track: nothing is rendered any more (C95_refuted). A track that is detached and attached again does not play on exactly as before: the time to its next step is lost (C95_again_refuted)."
  },
  {
   "property": "C96",
   "status": "partial",
   "theorems": [
    "BK.C96_stems_partial",
    "BK.C96_sum_partial",
    "BK.C96_own_partial",
    "BK.C96_refuted"
   ],
   "note": "Proved for all songs as in C86. The alone-played tracks are contexts as in C86, too. Samples that would be clipped do not add up (C96_refuted), so the statement about samples has a bound for the sum of the tracks."
  },
  {
   "property": "C97",
   "status": "partial",
   "theorems": [
    "BK.C97_wave_partial",
    "BK.C97_failed",
    "BK.C97_given_back_partial",
    "BK.C97_refuted_memory",
    "BK.C97_raw_partial",
    "BK.C97_raw_failed",
    "BK.C97_refuted_raw",
    "BK.C97_refuted_users",
    "BK.C97_refuted_file"
   ],
   "note": "Contents are proved for all WAVE files with whole frames and all raw data as in C60, and that failing changes nothing. Violated by the code: memory of earlier frames is lost whenever a file is loaded (C97_refuted_memory), raw data is never given back (C97_refuted_raw), units are not told (C97_refuted_users), malformed files write behind the memory and counts are not checked (C97_refuted_file)."
  },
  {
   "property": "C98",
   "status": "proved",
   "theorems": [
    "BK.C98_alone",
    "BK.C98_kept",
    "BK.C98_held",
    "BK.C98_released",
    "BK.C98_note",
    "BK.C98_note_ends",
    "BK.C98_note_release"
   ],
   "note": "C98_alone for all sequences, envelopes included; C98_note and C98_note_release from any legally reached state of a track. Values written out for value sequences (envelopes: C25, C26)."
  },
  {
   "property": "C99",
   "status": "partial",
   "theorems": [
    "BK.C99_effect_partial",
    "BK.C99_slides",
    "BK.C99_effect_others",
    "BK.C99_effect_refuted",
    "BK.C99_arpeggio",
    "BK.C99_instrument",
    "BK.C99_sample",
    "BK.C99_sample_lasts",
    "BK.C99_range",
    "BK.C99_sustain",
    "BK.C99_bytes",
    "BK.C99_bytes_fit",
    "BK.C99_size_refuted",
    "BK.C99_setptr_arpeggio_refuted",
    "BK.C99_setptr_effect_refuted"
   ],
   "note": "Slides, arpeggios, instruments, samples and ranges read back as claimed. Tremolo and vibrato are reported multiplied by 16384 and 32768 (C99_effect_refuted), reading an arpeggio ignores the size of the buffer (C99_size_refuted), and BKTrackSetPtr removes whatever arpeggio or effect it is given (C99_setptr_*_refuted). Samples and ranges last (C99_sample_lasts) as long as the data object itself is not changed."
  },
  {
   "property": "C100",
   "status": "partial",
   "theorems": [
    "BK.C100_never_faults_partial",
    "BK.C100_follows_partial",
    "BK.C100_others",
    "BK.C100_gone_partial",
    "BK.C100_in_tune_partial",
    "BK.C100_period_partial",
    "BK.C100_in_tune_refuted"
   ],
   "note": "The frames are always followed. The pitch is followed unless the track was ever cleared or reset (BKTrackClear, BKTrackReset, BKContextReset): then the track plays new frames with the old period, e.g. an octave too low (C100_in_tune_refuted). Assumed: tracks are attached while their data changes, a sample keeps a number of channels that fits, a waveform is not removed as sample or the other way round; C62 shows what happens otherwise."
  },
  {
   "property": "C101",
   "status": "proved",
   "theorems": [
    "BK.C101_nearest",
    "BK.C101_exact",
    "BK.C101_long",
    "BK.C101_monotone",
    "BK.C101_same_builds",
    "BK.C101_master_clock",
    "BK.C101_drift"
   ],
   "note": "Seconds that are not negative, times that fit the type; IEEE doubles without extra precision."
  },
  {
   "property": "C102",
   "status": "partial",
   "theorems": [
    "BK.C102_tape_partial",
    "BK.C102_song_partial",
    "BK.C102_once",
    "BK.C102_round",
    "BK.C102_back_and_forth",
    "BK.C102_tuning"
   ],
   "note": "Proved for all tracks without running effects whose last changes are not among those that the code does not apply (C82_refuted, e.g. the pitch attribute of a playing note), within the limits in which samples are read without fault (C51), whose unit period is not 0. Where the position is (once, round, tuning) is proved in full, back and forth for speeds of whole frames."
  },
  {
   "property": "C103",
   "status": "partial",
   "theorems": [
    "BK.C103_forwards_partial",
    "BK.C103_backwards_partial",
    "BK.C103_loop_partial",
    "BK.C103_released",
    "BK.C103_held",
    "BK.C103_end_stops",
    "BK.C103_refuted"
   ],
   "note": "False for ranges that end with the sample (C103_refuted): the end of the sample is checked first, so that the held sample stops, or is repeated from its first frame. Proved if one step behind the range is within the sample."
  },
  {
   "property": "C104",
   "status": "partial",
   "theorems": [
    "BK.C104_vibrato_partial",
    "BK.C104_tremolo",
    "BK.C104_vibrato_refuted"
   ],
   "note": "Proved for tracks without instrument whose vibrato or tremolo is set at once (its depth does not slide); tremolo in full, vibrato for depths that are not negative: a negative depth of less than 256 units per step begins above the note (C104_vibrato_refuted)."
  },
  {
   "property": "C105",
   "status": "partial",
   "theorems": [
    "BK.C105_sweep_partial",
    "BK.C105_across",
    "BK.C105_refuted"
   ],
   "note": "Proved for slides to the right and for slides to the left of at least 256 raw units (1/128) per step, on tracks without instrument, tremolo and volume slide. Violated by slower slides to the left, which do not arrive (C105_refuted)."
  },
  {
   "property": "C106",
   "status": "partial",
   "theorems": [
    "BK.C106_all_partial"
   ],
   "note": "Proved for tracks without instrument and arpeggio, for slides that rise or fall by at least 256 raw units per step and depths that are not negative; the code violates the claims about single effects otherwise (C93_refuted, C104_vibrato_refuted, C105_refuted)."
  },
  {
   "property": "C107",
   "status": "partial",
   "theorems": [
    "BK.C107_arpeggio",
    "BK.C107_effects_partial"
   ],
   "note": "Proved without restriction for tracks without instrument, portamento and vibrato (C107_arpeggio). With all effects (C107_effects_partial) as far as C106: slow falling slides and negative depths are missing because the code violates the claims about them."
  },
  {
   "property": "C108",
   "status": "proved",
   "theorems": [
    "BK.C108_instrument",
    "BK.C108_release"
   ],
   "note": "Stereo tracks without other effects; no rest of an earlier portamento may be left (hypothesis hrest, see C93_refuted). Nothing is claimed about the duty cycle of instruments without duty cycle sequence; envelopes are in C98."
  },
  {
   "property": "C109",
   "status": "proved",
   "theorems": [
    "BK.C109_adsr",
    "BK.C109_start_refuted"
   ],
   "note": "Stereo tracks without other effects and instruments without other sequences. The level from which the attack rises is that of the instrument state when the note begins; C110 gives that it is in 0..32767. It is not always 0 (`C109_start_refuted`): an instrument that has been attached for some ticks has already risen, and a note that was cut off by muting leaves its level."
  },
  {
   "property": "C110",
   "status": "proved",
   "theorems": [
    "BK.C110_within",
    "BK.C110_without",
    "BK.C110_volume"
   ],
   "note": "The duty cycle is left out: the track writes its own duty cycle into that sequence. `C110_volume` uses C82, with the calls listed there that leave the volume stale excluded."
  },
  {
   "property": "C111",
   "status": "proved",
   "theorems": [
    "BK.C111_mixed"
   ],
   "note": "Stereo tracks without other effects. Envelopes other than ADSR are covered by C26 and C110 only."
  },
  {
   "property": "C112",
   "status": "proved",
   "theorems": [
    "BK.C112_held",
    "BK.C112_released"
   ],
   "note": "Stereo tracks without slides, vibrato and tremolo. Samples as waveforms are left out. The arpeggio is set before the note; one that has been running in silence begins with its first interval only when its divider fires (C54)."
  },
  {
   "property": "C113",
   "status": "proved",
   "theorems": [
    "BK.C113_legato",
    "BK.C113_release"
   ],
   "note": "Stereo tracks without slides, vibrato, tremolo and arpeggio. Samples as waveforms are left out. The last note is followed by at least one tick; the instrument has a sustain range, as otherwise it ends on its own (C98)."
  },
  {
   "property": "C114",
   "status": "proved",
   "theorems": [
    "BK.C114_mono",
    "BK.C114_release"
   ],
   "note": "Tracks without slides, vibrato, tremolo and arpeggio. Samples as waveforms are left out. All contexts of a program have the same number of channels, as in C80."
  },
  {
   "property": "C115",
   "status": "proved",
   "theorems": [
    "BK.C115_arpeggio"
   ],
   "note": "Stereo tracks without slides, vibrato and tremolo. Samples as waveforms are left out. The last note is followed by at least one tick."
  },
  {
   "property": "C116",
   "status": "proved",
   "theorems": [
    "BK.C116_phrases",
    "BK.C116_release"
   ],
   "note": "Stereo tracks without slides, vibrato, tremolo and arpeggio. Samples as waveforms are left out. The last note of each phrase is followed by at least one tick."
  }
 ]
}
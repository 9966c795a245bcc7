import Verif.Model.C
/-!
`/repo/src/BKTone.c`: note period and sample pitch lookup.
-/
namespace BK

/-- BKTone.c 31–42, `tonePeriods`. -/
def tonePeriods : List Int :=
  [
    32063, 30263, 28565, 26962, 25448, 24020, 22672, 21399, 20198, 19065, 17994, 16985,
    16031, 15131, 14282, 13481, 12724, 12010, 11336, 10699, 10099, 9532, 8997, 8492,
    8015, 7565, 7141, 6740, 6362, 6005, 5668, 5349, 5049, 4766, 4498, 4246,
    4007, 3782, 3570, 3370, 3181, 3002, 2834, 2674, 2524, 2383, 2249, 2123,
    2003, 1891, 1785, 1685, 1590, 1501, 1417, 1337, 1262, 1191, 1124, 1061,
    1001, 945, 892, 842, 795, 750, 708, 668, 631, 595, 562, 530,
    500, 472, 446, 421, 397, 375, 354, 334, 315, 297, 281, 265,
    250, 236, 223, 210, 198, 187, 177, 167, 157, 148, 140, 132,
    125]

/-- BKTone.c 50–61, `log2Periods`. -/
def log2Periods : List Int :=
  [
    65536, 69432, 73561, 77935, 82570, 87480, 92681, 98193, 104031, 110217, 116771, 123715,
    131072, 138865, 147123, 155871, 165140, 174960, 185363, 196386, 208063, 220435, 233543, 247430,
    262144, 277731, 294246, 311743, 330280, 349920, 370727, 392772, 416127, 440871, 467087, 494861,
    524288, 555463, 588493, 623487, 660561, 699840, 741455, 785544, 832255, 881743, 934175, 989723,
    1048576, 1110927, 1176986, 1246974, 1321122, 1399681, 1482910, 1571088, 1664510, 1763487, 1868350, 1979447,
    2097152, 2221855, 2353973, 2493948, 2642245, 2799362, 2965820, 3142177, 3329021, 3526975, 3736700, 3958895,
    4194304, 4443710, 4707947, 4987896, 5284491, 5598724, 5931641, 6284355, 6658042, 7053950, 7473400, 7917791,
    8388608, 8887420, 9415894, 9975792, 10568983, 11197448, 11863283, 12568710, 13316085, 14107900, 14946800, 15835583,
    16777216]

/-- BKTone.c 63–82.  `tone` is an `int32_t`, `sampleRate` and all products are
`uint32_t`; array reads are bounds checked. -/
def tonePeriodLookup (tone sampleRate : Int) : C Int := do
  let tone := cclamp tone 0 (96 * U20)
  let frac := tone % U20 / 16
  let tone := tone / U20
  let sampleRate := cclamp sampleRate 16000 96000
  let period1 ← rd tonePeriods tone
  let period2 ← rd tonePeriods (cmin (tone + 1) 96)
  let period := wrapU32 (wrapU32 (period1 * (65536 - frac)) + wrapU32 (period2 * frac))
  return wrapU32 (wrapU32 (period / 262144 * sampleRate) * 4)

/-- BKTone.c 84–101. -/
def log2PeriodLookup (tone : Int) : C Int := do
  let tone := cclamp tone 0 (96 * U20)
  let frac := tone % U20 / 4096
  let tone := tone / U20
  let period1 ← rd log2Periods tone
  let period2 ← rd log2Periods (cmin (tone + 1) 96)
  let period := wrapU32 (wrapU32 (period1 / 4 * (256 - frac)) + wrapU32 (period2 / 4 * frac))
  return period / 64

end BK

import Verif.Model.Load
import Verif.Spec.Wave
import Verif.Spec.Convert
/-! What loading data from files is about. -/
namespace BK

/-- Amplitudes of the samples in the data chunk of a WAVE file: unsigned numbers for 8 bits, signed ones with the least significant byte
first for 16 bits. -/
def amplitudes16 : List Int → List Int
  | a :: b :: bs => signed 16 (number [a, b]) :: amplitudes16 bs
  | _ => []

def amplitudes (numBits : Int) (data : List Int) : List Int :=
  if numBits = 8 then data.map fun b => 256 * (b - 128) else amplitudes16 data

/-- What can be read from a data object: number of frames, of channels, sample rate and the frames of all channels. -/
def CopyWorld.loaded (w : CopyWorld) (d : Nat) : C (Nat × Nat × Int × List Int) := do
  let l ← w.read (w.objs d).frames ((w.objs d).numFrames * (w.objs d).numChannels)
  return ((w.objs d).numFrames, (w.objs d).numChannels, (w.objs d).sampleRate, l)

/-- A block that is allocated but does not belong to any object. -/
def CopyWorld.Lost (w : CopyWorld) (b : Nat) : Prop := w.heap b ≠ none ∧ ∀ d, (w.objs d).frames ≠ some b

end BK

import Verif.Model.DataMem
/-! What callers have to observe so that no frames are used after they have been freed. -/
namespace BK

/-- The conditions of the calls, as far as they are not obvious (`kind` is what a unit plays; a unit with data
plays nothing if setting other data has failed since):
* frames that are not copied are only set if the data has no copy (they would be freed like one);
* data is only converted if it has frames;
* data only gets new frames or is converted with a number of channels which all of its users accept, and while all of its users
  play it;
* raw data is only set if no unit uses the data (units are not notified);
* a file is only loaded if it has channels, as many as the samples have that units play (they are not notified either);
* units are not detached from the context while they play data (they would not be notified later);
* a custom waveform is not removed as sample and a sample not as custom waveform. -/
def DataOp.Legal (w : DWorld) : DataOp → Prop
  | .init d => (w.datas d).alive = false
  | .setFrames d src n c copy _ =>
    (w.datas d).alive = true ∧ (∃ size, src = .user size ∧ n * c ≤ size) ∧
    (copy = false → (w.datas d).copy = false) ∧
    ∀ u, w.links.owner u = some d → (w.units u).kind ≠ .builtin ∧
      ((w.units u).kind = .sample → c = 1 ∨ (w.units u).ctx = some c)
  | .setRaw d _ _ _ => (w.datas d).alive = true ∧ ∀ u, w.links.owner u ≠ some d
  | .load d _ c _ => (w.datas d).alive = true ∧ 1 ≤ c ∧
    ∀ u, w.links.owner u = some d → (w.units u).kind = .sample → (w.units u).chans = c
  | .normalize d _ => (w.datas d).alive = true
  | .convert d _ => (w.datas d).alive = true ∧ 2 ≤ (w.datas d).numFrames ∧
    ∀ u, w.links.owner u = some d → (w.units u).kind ≠ .builtin ∧
      ((w.units u).kind = .sample → (w.datas d).numChannels = 1 ∨ (w.units u).ctx = some (w.datas d).numChannels)
  | .detachAll d => (w.datas d).alive = true
  | .dispose d => (w.datas d).alive = true
  | .attach _ _ => True
  | .detach u => (w.units u).kind = .builtin
  | .use _ type (some d) => type ≠ .builtin ∧ (w.datas d).alive = true
  | .use u type none => type ≠ .builtin ∧ ((w.units u).kind = .builtin ∨ (w.units u).kind = type)
  | .waveform _ => True
  | .range _ => True
  | .play _ => True
  | .disposeUnit _ => True

/-- The conditions are met by each call when it is its turn. -/
def DWorld.LegalRun (fuel : Nat) (w : DWorld) : List DataOp → Prop
  | [] => True
  | op :: ops => op.Legal w ∧ ∀ w', w.exec fuel op = .ok w' → w'.LegalRun fuel ops

end BK

import Verif.Spec.AllFx
import Verif.Lemmas.AllFx2
import Verif.Props.Sweep
/-!
C106: all effects at once.
-/
namespace BK

/-- C106: after any calls on tracks and instruments, have a stereo track without instrument and arpeggio glide, fade, sweep, and
swing with vibrato and tremolo.  From then on every tick sets the period of the note that the glide has reached, moved by the vibrato,
and gives to the channels the volume that the fade has reached, lowered by the tremolo, at the place that the sweep
has reached; each of the five effects goes its own way, as if the others were not there.  Partial: slow falling slides and negative
depths are missing, see `C93_refuted`, `C104_vibrato_refuted` and `C105_refuted`. -/
theorem C106_all_partial {N fuel : Nat} {ops : List WOp} {s : TWorld} {x : Nat} {t : Track}
    (hf : ops.length ≤ fuel) (hl : ({} : TWorld).LegalRun N fuel ops) (h : ({} : TWorld).run fuel ops = .ok s)
    (ht : s.tracks x = some t) (hon : s.iw.on x = false) (har : t.arpeggioOn = false) (hig : t.ignores = false)
    {rate : Int} (hc : t.ctx = some (rate, 2)) {cnt : Nat} (hw : t.unit.waveform.phases = some cnt) (hwt : t.waveform ≠ 16391)
    {d : Nat} (hd : 1 ≤ d) (hd2 : d ≤ 2147483647)
    {a b n : Int} (ha : 0 ≤ a) (ha2 : a ≤ 100663296) (hb : 0 ≤ b) (hb2 : b ≤ 100663296) (hn : 1 ≤ n) (hn2 : n ≤ 65536)
    (hdir : a ≤ b ∨ 256 * n ≤ a - b)
    {S v n2 : Int} (hS : 0 ≤ S) (hS2 : S ≤ 32767) (hv : 0 ≤ v) (hv2 : v ≤ 32767) (gn : 1 ≤ n2) (gn2 : n2 ≤ 65536)
    (gdir : S ≤ v ∨ n2 ≤ 128 * (S - v))
    {A B n3 : Int} (hA : -32767 ≤ A) (hA2 : A ≤ 32767) (hB : -32767 ≤ B) (hB2 : B ≤ 32767) (pn : 1 ≤ n3) (pn2 : n3 ≤ 65536)
    (pdir : A ≤ B ∨ n3 ≤ 128 * (A - B))
    {D : Int} {n4 : Nat} (hD : 0 ≤ D) (hD2 : D ≤ 536870912) (vn : 1 ≤ n4) (vn2 : n4 ≤ 65536)
    {E : Int} {n5 : Nat} (hE : 0 ≤ E) (hE2 : E ≤ 32767) (tn : 1 ≤ n5) (tn2 : n5 ≤ 65536) :
    ∃ note vol place vib trem, LeadsTo (n + 1) a b n note ∧ LeadsTo 3 S v n2 vol ∧ LeadsTo 3 A B n3 place ∧
      Swings (n4 + 1) D n4 vib ∧ Swings 5 E n5 trem ∧
      ∃ s0, Track.calls x (allCalls d a b n S v n2 A B n3 D n4 E n5) (s.iw, t) = .ok s0 ∧
      ∀ k, ∃ s' j V, Track.ticks x (k + 1) s0 = .ok s' ∧ j = firings d 0 k ∧
        V = vol j * (32767 - (trem j).natAbs) / 32768 * t.masterVolume / 32768 ∧
        s'.2.getAttr (.unit .period) = .ok (some (exactPeriod (note j + vib j + t.pitch) rate / cnt)) ∧
        s'.2.getAttr (.unit (.volumeOf 0)) = .ok (some (leftOf V (place j))) ∧
        s'.2.getAttr (.unit (.volumeOf 1)) = .ok (some (rightOf V (place j))) := by
  obtain ⟨m, hinv⟩ : ∃ m, s.Inv m N := by
    have := (TWorld.Inv.init N).run ops (by omega) hl
    rw [h] at this
    exact ⟨_, this⟩
  have hg := hinv.good
  have hi := hinv.tracks x t ht
  have hpo : t.panningOn = true := (TWorld.run_sided h x t ht).2 ⟨_, hc⟩
  obtain ⟨note, vol, place, vib, trem, u, h1, h2, h3, h4, h5, hcalls, ui, hu, e2, e3, e4, e5, e6, e7, e8, e9⟩ :=
    Track.allCalls_ok hg hi hon hwt hd hd2 ha ha2 hb hb2 hn hn2 hdir hS hS2 hv hv2 gn gn2 gdir hA hA2 hB hB2 pn pn2 pdir hD hD2 vn vn2 hE hE2 tn tn2
  refine ⟨note, vol, place, vib, trem, h1, h2, h3, h4, h5, _, hcalls, fun k => ?_⟩
  obtain ⟨s', j, V, y1, y2, y3, y4, y5, y6⟩ := hu.ticks hg ui hon (e7.trans hig) (e8.trans hpo) (e4.trans hc) (by rw [e6]; exact hw) (by rw [e5]; exact hwt)
    hd hd2 (h2.inside hS hS2 hv hv2) (h3.inside hA hA2 hB hB2) (fun j => by have := h5.range j; omega) k
  rw [e2, har, e3, if_neg (by decide), Int.add_zero] at y4
  rw [e9] at y3
  exact ⟨s', j, V, y1, y2, y3, y4, y5, y6⟩

/-- All five on the track of C104's examples: period, left and right volume. -/
example : ((List.range 6).map fun k => do
    let s ← swingTrack
    let s ← Track.calls 0 (allCalls 1 37748736 50331648 4 0 32000 2 (-32767) 32767 4 1048576 2 16384 2) s
    let s ← Track.ticks 0 (k + 1) s
    let p ← s.2.getAttr (.unit .period)
    let l ← s.2.getAttr (.unit (.volumeOf 0))
    let r ← s.2.getAttr (.unit (.volumeOf 1))
    return [p, l, r]) = [[11036025, 0, 0], [9018450, 5999, 2999], [7364700, 7999, 7999], [6383475, 5999, 11999], [5512500, 0, 15999],
      [5677875, 0, 11999]].map fun v => (.ok (v.map some) : C (List (Option Int))) := by
  decide +kernel

/-- The hypotheses are met by that track (see the examples of C104 and C105) and these arguments. -/
example : ∃ note vol place vib trem, LeadsTo 5 37748736 50331648 4 note ∧ LeadsTo 3 0 32000 2 vol ∧ LeadsTo 3 (-32767) 32767 4 place ∧
    Swings 3 1048576 2 vib ∧ Swings 5 16384 2 trem := by
  have hd : (do
      let s ← ({} : TWorld).run 8 [.init 0 16385, .track 0 (.attach 44100 2 0)]
      return (s.tracks 0).map fun t =>
        [!s.iw.on 0, !t.arpeggioOn, !t.ignores, decide (t.unit.waveform.phases = some 16), decide (t.waveform ≠ 16391),
          decide (t.ctx = some (44100, 2))] : C (Option (List Bool))) = .ok (some (List.replicate 6 true)) := by
    decide +kernel
  obtain ⟨s, e1, e2⟩ := bind_ok_iff.1 hd
  have e2 := Except.ok.inj e2
  obtain ⟨t, ht, e3⟩ := Option.map_eq_some_iff.1 e2
  simp only [List.replicate, List.cons.injEq, and_true, decide_eq_true_eq, Bool.not_eq_true'] at e3
  obtain ⟨b1, b2, b3, b4, b5, b6⟩ := e3
  obtain ⟨n, v, p, vi, tr, h1, h2, h3, h4, h5, -⟩ := C106_all_partial (N := 2) (fuel := 8) (ops := [.init 0 16385, .track 0 (.attach 44100 2 0)]) (by decide)
    ⟨Plain.of (by decide) (by decide), fun _ _ => ⟨fun _ _ => ⟨by decide, by decide, rfl⟩, fun _ _ => trivial⟩⟩ e1 ht b1 b2 b3 b6 b4 b5 (d := 1) (by decide)
    (by decide) (a := 37748736) (b := 50331648) (n := 4) (by decide) (by decide) (by decide) (by decide) (by decide) (by decide) (by decide)
    (S := 0) (v := 32000) (n2 := 2) (by decide) (by decide) (by decide) (by decide) (by decide) (by decide) (by decide)
    (A := -32767) (B := 32767) (n3 := 4) (by decide) (by decide) (by decide) (by decide) (by decide) (by decide) (by decide)
    (D := 1048576) (n4 := 2) (by decide) (by decide) (by decide) (by decide) (E := 16384) (n5 := 2) (by decide) (by decide) (by decide) (by decide)
  exact ⟨n, v, p, vi, tr, h1, h2, h3, h4, h5⟩

end BK

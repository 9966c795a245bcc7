import Verif.Spec.ArpHeard
import Verif.Lemmas.ArpHeard
import Verif.Props.AllFx
/-!
C107: arpeggios are heard as set.
-/
namespace BK

/-- C107: after any calls on tracks and instruments, have a track without instrument, portamento and vibrato play an arpeggio of one to eight
intervals from its beginning, with divider `d`.  From then on every tick sets the period of the note moved by the interval of
that tick: each for `d` ticks, in order, over and over. -/
theorem C107_arpeggio {N fuel : Nat} {ops : List WOp} {s : TWorld} {x : Nat} {t : Track}
    (hf : ops.length ≤ fuel) (hl : ({} : TWorld).LegalRun N fuel ops) (h : ({} : TWorld).run fuel ops = .ok s)
    (ht : s.tracks x = some t) (hon : s.iw.on x = false) (hpo : t.portamento = false) (hvi : t.vibratoOn = false)
    {rate chans : Int} (hc : t.ctx = some (rate, chans)) {cnt : Nat} (hw : t.unit.waveform.phases = some cnt) (hwt : t.waveform ≠ 16391)
    {note : Int} (hn : t.note.get = .ok note) {d : Nat} (hd : 1 ≤ d) (hd2 : d ≤ 2147483647)
    {ns : List Int} (h1 : 1 ≤ ns.length) (h8 : ns.length ≤ 8) (hns : ∀ n ∈ ns, Notes n) :
    ∃ s0, Track.calls x (arpCalls d ns) (s.iw, t) = .ok s0 ∧ ∀ k, ∃ s', Track.ticks x (k + 1) s0 = .ok s' ∧
      s'.2.getAttr (.unit .period) = .ok (some (exactPeriod (note + intervalAt d ns k + t.pitch) rate / cnt)) := by
  obtain ⟨m, hinv⟩ : ∃ m, s.Inv m N := by
    have := (TWorld.Inv.init N).run ops (by omega) hl
    rw [h] at this
    exact ⟨_, this⟩
  have hg := hinv.good
  have hi := hinv.tracks x t ht
  obtain ⟨a, hcalls, ui, wf, ao, ac, an⟩ := Track.arpCalls_ok (x := x) (w := s.iw) hi (TWorld.run_arp h x t ht).wf hd hd2 h1 h8 hns
  refine ⟨_, hcalls, fun k => ?_⟩
  generalize hu : ({ t with arpDiv := ⟨d, 0⟩, arp := a, arpeggioOn := true, updNote := true } : Track) = u at *
  obtain ⟨s', r, z, j⟩ := ui.ticks hg hon (k + 1)
  refine ⟨s', r, ?_⟩
  obtain ⟨-, k2, k3, k4, k5, k6, k7, k8, k9, k10, k11, k12, k13, k14⟩ := Track.ticks_keep hon (k + 1) r
  obtain ⟨-, n2, n3, n4⟩ := Track.ticks_note hon (k + 1) (by rw [← hu]; exact hpo) r
  have ok := Track.ticks_ok hg hon (k + 1) (Track.Ok.pending (p := .note) (by rw [← hu]; rfl)) r
  have hv' : s'.2.vibratoOn = false := by rw [k10, ← hu]; exact hvi
  have now := ok (n4 (by omega)) n3 hv'
  have ha := Track.ticks_arp hd hd2 (by rw [← hu]) (by rw [← hu]) h1 (by rw [← hu]; exact wf) (by rw [← hu]; exact ao) (by rw [← hu]; exact ac)
    (by rw [← hu]; exact an) r
  have := now.period j hv' (by rw [k13, ← hu]; exact hc) (by rw [Track.ticks_wave hon (k + 1) r, ← hu]; exact hw) (by rw [k14, ← hu]; exact hwt)
    (by rw [n2, ← hu]; exact hn)
  rw [this]
  unfold Track.pitchSet
  have e1 : u.arpeggioOn = true := by rw [← hu]
  have e2 : u.pitch = t.pitch := by rw [← hu]
  rw [hon, k11, k12, ha, e1, e2, if_pos rfl, if_neg (by decide), Int.add_zero]

/-- C107: so it is with all effects at once (see C106): the interval is added to the note that the glide has reached and to the vibrato.
Partial: slow falling slides and negative depths are missing, see `C93_refuted`, `C104_vibrato_refuted` and `C105_refuted`. -/
theorem C107_effects_partial {N fuel : Nat} {ops : List WOp} {s : TWorld} {x : Nat} {t : Track}
    (hf : ops.length ≤ fuel) (hl : ({} : TWorld).LegalRun N fuel ops) (h : ({} : TWorld).run fuel ops = .ok s)
    (ht : s.tracks x = some t) (hon : s.iw.on x = false) (hig : t.ignores = false)
    {rate : Int} (hc : t.ctx = some (rate, 2)) {cnt : Nat} (hw : t.unit.waveform.phases = some cnt) (hwt : t.waveform ≠ 16391)
    {d : Nat} (hd : 1 ≤ d) (hd2 : d ≤ 2147483647)
    {a b n : Int} (ha : 0 ≤ a) (ha2 : a ≤ 100663296) (hb : 0 ≤ b) (hb2 : b ≤ 100663296) (hn : 1 ≤ n) (hn2 : n ≤ 65536)
    (hdir : a ≤ b ∨ 256 * n ≤ a - b)
    {S v n2 : Int} (hS : 0 ≤ S) (hS2 : S ≤ 32767) (hv : 0 ≤ v) (hv2 : v ≤ 32767) (gn : 1 ≤ n2) (gn2 : n2 ≤ 65536)
    (gdir : S ≤ v ∨ n2 ≤ 128 * (S - v))
    {A B n3 : Int} (hA : -32767 ≤ A) (hA2 : A ≤ 32767) (hB : -32767 ≤ B) (hB2 : B ≤ 32767) (pn : 1 ≤ n3) (pn2 : n3 ≤ 65536)
    (pdir : A ≤ B ∨ n3 ≤ 128 * (A - B))
    {D : Int} {n4 : Nat} (hD : 0 ≤ D) (hD2 : D ≤ 536870912) (vn : 1 ≤ n4) (vn2 : n4 ≤ 65536)
    {E : Int} {n5 : Nat} (hE : 0 ≤ E) (hE2 : E ≤ 32767) (tn : 1 ≤ n5) (tn2 : n5 ≤ 65536)
    {da : Nat} (hda : 1 ≤ da) (hda2 : da ≤ 2147483647) {ns : List Int} (h1 : 1 ≤ ns.length) (h8 : ns.length ≤ 8) (hns : ∀ n ∈ ns, Notes n) :
    ∃ note vol place vib trem, LeadsTo (n + 1) a b n note ∧ LeadsTo 3 S v n2 vol ∧ LeadsTo 3 A B n3 place ∧
      Swings (n4 + 1) D n4 vib ∧ Swings 5 E n5 trem ∧
      ∃ s0, Track.calls x (allCalls d a b n S v n2 A B n3 D n4 E n5 ++ arpCalls da ns) (s.iw, t) = .ok s0 ∧
      ∀ k, ∃ s' j V, Track.ticks x (k + 1) s0 = .ok s' ∧ j = firings d 0 k ∧
        V = vol j * (32767 - (trem j).natAbs) / 32768 * t.masterVolume / 32768 ∧
        s'.2.getAttr (.unit .period) = .ok (some (exactPeriod (note j + intervalAt da ns k + vib j + t.pitch) rate / cnt)) ∧
        s'.2.getAttr (.unit (.volumeOf 0)) = .ok (some (leftOf V (place j))) ∧
        s'.2.getAttr (.unit (.volumeOf 1)) = .ok (some (rightOf V (place j))) := by
  obtain ⟨m, hinv⟩ : ∃ m, s.Inv m N := by
    have := (TWorld.Inv.init N).run ops (by omega) hl
    rw [h] at this
    exact ⟨_, this⟩
  have hg := hinv.good
  have hi := hinv.tracks x t ht
  have hpo : t.panningOn = true := (TWorld.run_sided h x t ht).2 ⟨_, hc⟩
  obtain ⟨note, vol, place, vib, trem, u, g1, g2, g3, g4, g5, hcalls, ui, hu, e2, e3, e4, e5, e6, e7, e8, e9⟩ :=
    Track.allCalls_ok hg hi hon hwt hd hd2 ha ha2 hb hb2 hn hn2 hdir hS hS2 hv hv2 gn gn2 gdir hA hA2 hB hB2 pn pn2 pdir hD hD2 vn vn2 hE hE2 tn tn2
  obtain ⟨ar, hcalls2, yi, wf, ao, ac, an⟩ := Track.arpCalls_ok (x := x) (w := s.iw) ui
    (Track.calls_arp _ (TWorld.run_arp h x t ht) hcalls).wf hda hda2 h1 h8 hns
  refine ⟨note, vol, place, vib, trem, g1, g2, g3, g4, g5, _, (Track.calls_append _ _ hcalls).trans hcalls2, fun k => ?_⟩
  have hy : ({ u with arpDiv := ⟨da, 0⟩, arp := ar, arpeggioOn := true, updNote := true } : Track).AllOn d note vol place vib trem :=
    ⟨hu.portamento, hu.vibratoOn, hu.tremoloOn, hu.volumeSlide, hu.panningSlide, hu.still, hu.div, hu.note, hu.vol, hu.place, hu.vib, hu.trem⟩
  obtain ⟨s', j, V, y1, y2, y3, y4, y5, y6⟩ := hy.ticks (x := x) hg yi hon (e7.trans hig) (e8.trans hpo) (e4.trans hc) (by exact e6 ▸ hw)
    (by exact e5 ▸ hwt) hd hd2 (g2.inside hS hS2 hv hv2) (g3.inside hA hA2 hB hB2) (fun j => by have := g5.range j; omega) k
  have hdelta := Track.ticks_arp hda hda2 (by rfl) (by rfl) h1 (by exact wf) (by exact ao) (by exact ac) (by exact an) y1
  dsimp only at y3 y4
  rw [e3, hdelta, if_pos rfl] at y4
  rw [e9] at y3
  exact ⟨s', j, V, y1, y2, y3, y4, y5, y6⟩

/-- A major chord on the track of C104's examples, each note for two ticks: the periods of the notes 48, 52, 55 and again 48. -/
example : ((List.range 7).map fun k => do
    let s ← swingTrack
    let s ← Track.calls 0 (arpCalls 2 [0, 4194304, 7340032]) s
    let s ← Track.ticks 0 (k + 1) s
    s.2.getAttr (.unit .period)) = [5512500, 5512500, 4376925, 4376925, 3682350, 3682350, 5512500].map fun v => (.ok (some v) : C (Option Int)) := by
  decide +kernel

/-- The hypotheses are met by that track and these arguments. -/
example : ∃ s t, ({} : TWorld).run 8 [.init 0 16385, .track 0 (.attach 44100 2 0)] = .ok s ∧ s.tracks 0 = some t ∧
    ∃ s0, Track.calls 0 (arpCalls 2 [0, 4194304, 7340032]) (s.iw, t) = .ok s0 ∧ ∀ k, ∃ s', Track.ticks 0 (k + 1) s0 = .ok s' ∧
      s'.2.getAttr (.unit .period) = .ok (some (exactPeriod (0 + intervalAt 2 [0, 4194304, 7340032] k + t.pitch) 44100 / (16 : Nat))) := by
  have hd : (do
      let s ← ({} : TWorld).run 8 [.init 0 16385, .track 0 (.attach 44100 2 0)]
      return (s.tracks 0).map fun t =>
        [!s.iw.on 0, !t.portamento, !t.vibratoOn, decide (t.unit.waveform.phases = some 16), decide (t.waveform ≠ 16391),
          decide (t.ctx = some (44100, 2)), decide (t.note.get = .ok 0)] : C (Option (List Bool))) = .ok (some (List.replicate 7 true)) := by
    decide +kernel
  obtain ⟨s, e1, e2⟩ := bind_ok_iff.1 hd
  have e2 := Except.ok.inj e2
  obtain ⟨t, ht, e3⟩ := Option.map_eq_some_iff.1 e2
  simp only [List.replicate, List.cons.injEq, and_true, decide_eq_true_eq, Bool.not_eq_true'] at e3
  obtain ⟨b1, b2, b3, b4, b5, b6, b7⟩ := e3
  exact ⟨s, t, e1, ht, C107_arpeggio (N := 2) (fuel := 8) (ops := [.init 0 16385, .track 0 (.attach 44100 2 0)]) (by decide)
    ⟨Plain.of (by decide) (by decide), fun _ _ => ⟨fun _ _ => ⟨by decide, by decide, rfl⟩, fun _ _ => trivial⟩⟩ e1 ht b1 b2 b3 b6 b4 b5 b7
    (d := 2) (by decide) (by decide) (ns := [0, 4194304, 7340032]) (by decide) (by decide) (by unfold Notes; decide)⟩

/-- With all effects: period, left and right volume. -/
example : ((List.range 6).map fun k => do
    let s ← swingTrack
    let s ← Track.calls 0 (allCalls 1 37748736 50331648 4 0 32000 2 (-32767) 32767 4 1048576 2 16384 2 ++ arpCalls 2 [0, 12582912]) s
    let s ← Track.ticks 0 (k + 1) s
    let p ← s.2.getAttr (.unit .period)
    let l ← s.2.getAttr (.unit (.volumeOf 0))
    let r ← s.2.getAttr (.unit (.volumeOf 1))
    return [p, l, r]) = [[11036025, 0, 0], [9018450, 5999, 2999], [3682350, 7999, 7999], [3186225, 5999, 11999], [5512500, 0, 15999],
      [5677875, 0, 11999]].map fun v => (.ok (v.map some) : C (List (Option Int))) := by
  decide +kernel

end BK

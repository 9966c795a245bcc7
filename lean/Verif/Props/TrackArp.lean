import Verif.Lemmas.TrackArp
import Verif.Props.TrackTick
import Verif.Lemmas.UnitWave
/-!
C54: arpeggios.
-/
namespace BK

/-- Setting an arpeggio of 1 to 8 notes on a track with any history: it is on, reads back as given
and continues with the note of the old number, or with the first if there is no such note. -/
theorem C54_set (fuel : Nat) (ops : List WOp) (s : TWorld) (hs : ({} : TWorld).run fuel ops = .ok s)
    (x : Nat) (t : Track) (hx : s.tracks x = some t) (ns : List Int) (h1 : 1 ≤ ns.length)
    (h8 : ns.length ≤ 8) :
    ∃ t', t.setArpeggio (ns.length :: ns) = .ok t' ∧ t'.arpeggioOn = true ∧
      t'.getArpeggio = (ns.length : Int) :: ns ∧
      t'.arp.offset = if t.arp.offset < ns.length then t.arp.offset else 0 := by
  have hi := TWorld.run_arp hs x t hx
  have hm : cmin (ns.length : Int) 8 = ns.length := by unfold cmin; split <;> omega
  have e : t.arp.set (ns.length :: ns) = .ok { t.arp with
      count := ns.length, offset := if t.arp.offset ≥ ns.length then 0 else t.arp.offset
      notes := ns ++ t.arp.notes.drop ns.length } := by
    unfold Arp.set
    dsimp only
    rw [hm, if_neg (by omega), show (ns.length : Int).toNat = ns.length by omega, List.take_length]
  unfold Track.setArpeggio
  rw [e, ok_bind]
  refine ⟨_, rfl, ?_, ?_, ?_⟩
  · exact decide_eq_true (show (ns.length : Int) > 0 by omega)
  · show (ns.length : Int) :: List.take (ns.length : Int).toNat (ns ++ _) = _
    rw [show (ns.length : Int).toNat = ns.length by omega, List.take_left]
  · show (if t.arp.offset ≥ ns.length then 0 else t.arp.offset) = _
    split <;> split <;> omega

theorem Arp.times_tick {a : Arp} (h : a.Wf) (hc : 0 < a.count) (k : Nat) :
    times Arp.tick k a = .ok { a with
      offset := (((a.offset.toNat + k) % a.count.toNat : Nat) : Int)
      delta := if k = 0 then a.delta
        else (a.notes.take a.count.toNat).getD ((a.offset.toNat + (k - 1)) % a.count.toNat) 0 } := by
  have ho := h.offset
  have hcc := h.count
  have hl := h.len
  have hp : 0 < a.count.toNat := by omega
  induction k with
  | zero =>
    have : (((a.offset.toNat + 0) % a.count.toNat : Nat) : Int) = a.offset := by
      rw [Nat.mod_eq_of_lt (by omega)]; omega
    rw [this]
    rfl
  | succ k ih =>
    have hlt : (a.offset.toNat + k) % a.count.toNat < a.count.toNat := Nat.mod_lt _ hp
    have hs := mod_succ (a.offset.toNat + k) a.count.toNat hp
    unfold times
    rw [ih, ok_bind]
    unfold Arp.tick
    dsimp only
    rw [rd_getD_int 0 (by omega) (by omega), ok_bind, i32_ok (by omega) (by omega), ok_bind]
    have e1 : (if (((a.offset.toNat + k) % a.count.toNat : Nat) : Int) + 1 ≥ a.count then 0
        else (((a.offset.toNat + k) % a.count.toNat : Nat) : Int) + 1) =
        (((a.offset.toNat + (k + 1)) % a.count.toNat : Nat) : Int) := by
      rw [show a.offset.toNat + (k + 1) = a.offset.toNat + k + 1 by omega, hs]
      split <;> split <;> omega
    rw [e1, if_neg (by omega), show k + 1 - 1 = k by omega]
    have e2 : a.notes.getD ((((a.offset.toNat + k) % a.count.toNat : Nat) : Int)).toNat 0 =
        (a.notes.take a.count.toNat).getD ((a.offset.toNat + k) % a.count.toNat) 0 := by
      rw [Int.toNat_natCast]
      simp [List.getD, List.getElem?_take, hlt]
    rw [e2]
    rfl

/-- While an arpeggio plays, after any history: whatever the number of ticks, the note selected is
the one that the number of times the divider has fired leads to in cyclic order. -/
theorem C54_cycle_partial (fuel : Nat) (ops : List WOp) (s : TWorld)
    (hs : ({} : TWorld).run fuel ops = .ok s) (x : Nat) (t : Track) (hx : s.tracks x = some t)
    (hon : t.arpeggioOn = true) (d c n : Nat) (hc : c < d) (hm : d ≤ 2147483647)
    (hd : t.arpDiv = ⟨d, c⟩) (hn : c < n) (r : IWorld × Track)
    (h : Track.ticks x n (s.iw, t) = .ok r) :
    r.2.arp.delta = arpNote t.getArpeggio.tail t.arp.offset.toNat (firings d c n - 1) ∧
    r.2.arp.delta ∈ t.getArpeggio.tail := by
  have hi := TWorld.run_arp hs x t hx
  have hcnt : 0 < t.arp.count := by
    have := hi.on; rw [hon] at this
    have := of_decide_eq_true this.symm
    omega
  have hf : firings d c n ≠ 0 := by
    unfold firings
    have : 1 ≤ (n + (d - 1) - c) / d := (Nat.le_div_iff_mul_le (by omega)).2 (by omega)
    omega
  have := C53_arpeggio_partial x n d c hc hm s.iw t r hd hon h
  rw [Arp.times_tick hi.wf hcnt] at this
  injection this with this
  have hlen : (t.arp.notes.take t.arp.count.toNat).length = t.arp.count.toNat := by
    rw [List.length_take, hi.wf.len]
    have := hi.wf.count
    omega
  have hd : r.2.arp.delta = (t.arp.notes.take t.arp.count.toNat).getD
      ((t.arp.offset.toNat + (firings d c n - 1)) % t.arp.count.toNat) 0 := by
    rw [← this]
    dsimp only
    rw [if_neg hf]
  constructor
  · rw [hd]
    unfold arpNote Track.getArpeggio
    rw [List.tail_cons, hlen]
  · rw [hd]
    unfold Track.getArpeggio
    rw [List.tail_cons]
    have hlt : (t.arp.offset.toNat + (firings d c n - 1)) % t.arp.count.toNat <
        (t.arp.notes.take t.arp.count.toNat).length := by
      rw [hlen]; exact Nat.mod_lt _ (by omega)
    rw [List.getD_eq_getElem?_getD, List.getElem?_eq_getElem hlt]
    exact List.getElem_mem hlt

/-- A new note after silence starts the arpeggio from its first note and changes nothing else about
it; a new note while another plays does not change it at all. -/
theorem C54_restart (x : Nat) (w : IWorld) (t : Track) (n : Int) (hn : 0 ≤ n) (r : IWorld × Track)
    (h : t.setNote x w n = .ok r) :
    r.2.arp = (if t.curNote = -1 then { t.arp with offset := 0 } else t.arp) ∧
    r.2.arpeggioOn = t.arpeggioOn := by
  refine ⟨?_, (Track.setNote_kept h).on⟩
  unfold Track.setNote Track.noteCase at h
  rw [if_pos (show n ≥ 0 from hn)] at h
  obtain ⟨r1, h1, h⟩ := bind_ok_iff.1 h
  cases h
  unfold Track.playNote at h1
  obtain ⟨s, -, h1⟩ := bind_ok_iff.1 h1
  obtain ⟨r2, h2, h1⟩ := bind_ok_iff.1 h1
  obtain ⟨t1, k1, h1⟩ := bind_ok_iff.1 h1
  obtain ⟨t2, k2, h1⟩ := bind_ok_iff.1 h1
  obtain ⟨t3, k3, h1⟩ := bind_ok_iff.1 h1
  cases h1
  dsimp only
  rw [(Track.setUnit_same k3).arp, (Track.setUnit_same k2).arp]
  dsimp only
  rw [(Track.startSample_same k1).arp]
  unfold Track.startNote at h2
  dsimp only at h2
  split at h2
  · rename_i hc
    rw [if_pos hc]
    split at h2
    · obtain ⟨r3, h3, h2⟩ := bind_ok_iff.1 h2
      cases h2
      dsimp only
      rcases (Track.instrAttack_kept h3).arp with e | e <;> rw [e]
    · cases h2; rfl
  · rename_i hc
    rw [if_neg hc]
    cases h2; rfl

/-- Calls that give track 0 an arpeggio of three notes and a divider 2. -/
def arpOps : List WOp :=
  [.init 0 16385, .track 0 (.attr .arpeggioDivider 2),
   .track 0 (.arpeggio [3, 0, 4 * U20, 7 * U20]), .track 0 (.attr .note (40 * U20))]

example : ((({} : TWorld).run 0 arpOps).map fun s => (s.tracks 0).map fun t =>
      (t.arpeggioOn, t.arpDiv, t.getArpeggio)) =
      .ok (some (true, ⟨2, 0⟩, [3, 0, 4 * U20, 7 * U20])) ∧
    ((({} : TWorld).run 0 (arpOps ++ List.replicate 5 (.track 0 .tick))).map fun s =>
      (s.tracks 0).map fun t => t.arp.delta) = .ok (some (7 * U20)) := by decide +kernel

/-- Not at once: a new arpeggio is first heard with a note of the old one, if the divider does not
fire on the next tick, and a new note after silence with the note that was selected last.  Here the
old arpeggio is 0, 4, 7, the new one 0, 3, and the note that sounds after the tick is 40 + 4. -/
theorem C54_refuted :
    ((({} : TWorld).run 0 (arpOps ++ [.track 0 .tick, .track 0 .tick, .track 0 .tick,
        .track 0 (.arpeggio [2, 0, 3 * U20]), .track 0 .tick])).map fun s =>
      (s.tracks 0).map fun t => (t.getArpeggio, (t.noteSum 0 s.iw).toOption)) =
      .ok (some ([2, 0, 3 * U20], some (44 * U20))) ∧
    ((({} : TWorld).run 0 (arpOps ++ [.track 0 .tick, .track 0 .tick, .track 0 .tick,
        .track 0 (.attr .note (-2)), .track 0 (.attr .note (50 * U20)), .track 0 .tick])).map fun s =>
      (s.tracks 0).map fun t => (t.getArpeggio, (t.noteSum 0 s.iw).toOption)) =
      .ok (some ([3, 0, 4 * U20, 7 * U20], some (54 * U20))) := by decide +kernel

end BK

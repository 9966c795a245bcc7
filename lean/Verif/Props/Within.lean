import Verif.Spec.Within
import Verif.Props.Current
import Verif.Props.Played
import Verif.Props.TrackMix
import Verif.Lemmas.Current2
/-!
C110: instruments stay within the values written for them.
-/
namespace BK

theorem SimpleSeq.create_mem {vals : List Int} {so sl : Int} {q : SimpleSeq} (h : SimpleSeq.create vals so sl = .ok (some q)) :
    ∀ v ∈ q.values, v ∈ vals := by
  unfold SimpleSeq.create at h
  dsimp only at h
  generalize wrapI32 (4 * _) = size at h
  generalize (size / 4).toNat = m at h
  obtain ⟨g, -, h⟩ := bind_ok_iff.1 h
  split at h
  · cases h
    exact fun v hv => List.mem_of_mem_take hv
  · cases h

theorem EnvSeq.create_mem {ps : List EnvPoint} {so sl : Int} {q : EnvSeq} (h : EnvSeq.create ps so sl = .ok (some q)) :
    ∀ p ∈ q.points, p ∈ ps := by
  unfold EnvSeq.create at h
  dsimp only at h
  generalize wrapI32 (8 * _) = size at h
  generalize (size / 8).toNat = m at h
  split at h
  · obtain ⟨g, -, h⟩ := bind_ok_iff.1 h
    split at h
    · obtain ⟨fs, -, h⟩ := bind_ok_iff.1 h
      simp only [pure_eq_ok, Except.ok.injEq, Option.some.injEq] at h
      subst h
      exact fun v hv => List.mem_of_mem_take hv
    · cases h
  · cases h

/-- C110: after any calls, volume, panning and pitch that an instrument gives to a track lie between the lowest and the highest value that was
written for the sequence, 0 included. -/
theorem C110_within {N fuel : Nat} {ops : List WOp} {s : TWorld} {x i k : Nat}
    (hl : ({} : TWorld).LegalRun N fuel ops) (hfu : ops.length ≤ fuel) (h0 : ({} : TWorld).run fuel ops = .ok s)
    (hx : s.iw.links.owner x = some i) (hk : k < 3) {new : NewSeq} (hp : s.iw.Plays i k new) {lo hi : Int}
    (hlo : lo ≤ 0) (hhi : 0 ≤ hi) (hw : new.Within lo hi) : lo ≤ s.iw.value x k ∧ s.iw.value x k ≤ hi := by
  have hinv := ((TWorld.Inv.init N).run ops (by omega) hl)
  rw [h0] at hinv
  have hinv : s.Inv (0 + ops.length) N := hinv
  obtain ⟨A, hA, -⟩ := hinv.good
  have ha := (hA.inv.att x i hx).has
  obtain ⟨id, q, e1, e2, e3⟩ := hp
  have hs : ((s.iw.states x).slots k).seq = some id := by rw [ha.pt k (by omega)]; exact e1
  have hv := ha.val k hk
  unfold IWorld.value
  cases new with
  | nothing => cases e3
  | values vals so sl =>
    unfold NewSeq.create at e3
    dsimp only at e3
    split at e3
    · cases e3
    · obtain ⟨o, e4, e3⟩ := bind_ok_iff.1 e3
      cases o with
      | none => cases e3
      | some q' =>
        cases e3
        rcases hv.2.1 id q' hs e2 with h | h
        · rw [h]; exact ⟨hlo, hhi⟩
        · exact hw _ (SimpleSeq.create_mem e4 _ h)
  | points ps so sl =>
    unfold NewSeq.create at e3
    dsimp only at e3
    split at e3
    · cases e3
    · obtain ⟨o, e4, e3⟩ := bind_ok_iff.1 e3
      cases o with
      | none => cases e3
      | some q' =>
        cases e3
        have h := hv.2.2 id q' hs e2 trivial lo hi hlo hhi (fun p hp => hw p (EnvSeq.create_mem e4 p hp))
        have hn := (((ha.slot k id _ (by omega) e1 e2).env q' rfl).num trivial).1
        have h2 : (0 : Int) < 2 ^ q'.fracShift := two_pow_pos _
        rw [hn.eq]
        exact ⟨(Int.le_ediv_iff_mul_le h2).2 h.1, Int.ediv_le_of_le_mul h2 h.2⟩

/-- C110: without a sequence an instrument leaves the volume as it is and adds nothing to panning and pitch. -/
theorem C110_without {N fuel : Nat} {ops : List WOp} {s : TWorld} {x i k : Nat}
    (hl : ({} : TWorld).LegalRun N fuel ops) (hfu : ops.length ≤ fuel) (h0 : ({} : TWorld).run fuel ops = .ok s)
    (hx : s.iw.links.owner x = some i) (hk : k < 3) (hn : (s.iw.instrs i).sequences k = none) :
    s.iw.value x k = if k = 0 then 32767 else 0 := by
  have hinv := ((TWorld.Inv.init N).run ops (by omega) hl)
  rw [h0] at hinv
  have hinv : s.Inv (0 + ops.length) N := hinv
  obtain ⟨A, hA, -⟩ := hinv.good
  have ha := (hA.inv.att x i hx).has
  exact (ha.val k hk).1 (by rw [ha.pt k (by omega)]; exact hn)

/-- C110: an instrument whose volumes are in range never makes a track louder than its own volume says. -/
theorem C110_volume {N fuel : Nat} {ops : List WOp} {s : TWorld} {x i : Nat} {t : Track}
    (hl : ({} : TWorld).LegalRun N fuel ops) (hfu : ops.length ≤ fuel) (h0 : ({} : TWorld).run fuel ops = .ok s)
    (ht : s.tracks x = some t) (hc : t.ctx ≠ none) (hvs : t.volumeSlide = false) (hps : t.panningSlide = false)
    (htr : t.tremoloOn = false) (hs : stale x .vol ops = false) (hig : t.ignores = false)
    (hx : s.iw.links.owner x = some i)
    (hv : (s.iw.instrs i).sequences 0 = none ∨ ∃ new, s.iw.Plays i 0 new ∧ new.Within 0 32767)
    {e : Int} {r : Track × List Pulse} (hr : t.run x s.iw e = .ok r) {vol : Int} (hvol : t.volume.get = .ok vol)
    (j : Nat) (hj : j < 2) : r.1.unit.volume j ≤ vol := by
  have hinv := ((TWorld.Inv.init N).run ops (by omega) hl)
  rw [h0] at hinv
  have hinv : s.Inv (0 + ops.length) N := hinv
  have hti := hinv.tracks x t ht
  have k : t.Ok x s.iw .vol := TWorld.run_ok ops (TWorld.Inv.init N) (by omega) hl (fun _ t h => by cases h) h0 hs t ht
  have k' : r.1.Ok x s.iw .vol :=
    Track.Ok.exec (op := .run e) (r := (s.iw, r.1)) (hinv.good.pointed x) (Or.inr ⟨k, rfl⟩) (by
      unfold Track.exec; dsimp only; rw [hr]; rfl)
  obtain ⟨c1, c2, sb⟩ := Track.run_clean hr
  have hn : r.1.VolNow x s.iw := k' (by rw [sb.ctx]; exact hc) c1 (by rw [sb.volumeSlide]; exact hvs)
    (by rw [sb.panningSlide]; exact hps) (by rw [sb.tremoloOn]; exact htr)
  have hi : 0 ≤ s.iw.value x 0 ∧ s.iw.value x 0 ≤ 32767 := by
    rcases hv with h | ⟨new, h1, h2⟩
    · rw [C110_without hl hfu h0 hx (by omega) h]; decide
    · exact C110_within hl hfu h0 hx (by omega) h1 (by omega) (by omega) h2
  obtain ⟨v, e1, e2, -⟩ := hti.volume.get
  rw [hvol] at e1
  cases e1
  exact C55_note_partial x s.iw r.1 r.1 vol (by rw [sb.masterVolume]; exact hti.masterVolume) (by rw [sb.volume]; exact hvol)
    e2 (by rw [sb.ignores]; exact hig) (fun _ => hi) hn.idle j hj

/-- What the examples need to know after the calls of `tune`. -/
def tuneView (s : TWorld) : Option (List Bool) × List (Option Sequence) × Option Nat :=
  ((s.tracks 0).map fun t => [decide (t.ctx ≠ none), !t.volumeSlide, !t.panningSlide, !t.tremoloOn, !t.ignores, decide (t.volume.get = .ok 20000)],
    [0, 1, 2].map fun k => ((s.iw.instrs 3).sequences k).bind s.iw.heap, s.iw.links.owner 0)

/-- The hypotheses are met: a track with an instrument plays, volume and pitch are sequences, the panning is not. -/
example : ∃ s t, ({} : TWorld).run 32 tune = .ok s ∧ s.tracks 0 = some t ∧ (0 ≤ s.iw.value 0 0 ∧ s.iw.value 0 0 ≤ 32767) ∧
    s.iw.value 0 1 = 0 ∧ (0 ≤ s.iw.value 0 2 ∧ s.iw.value 0 2 ≤ 524288) ∧
    ∀ e r, t.run 0 s.iw e = .ok r → r.1.unit.volume 0 ≤ 20000 := by
  have h : (({} : TWorld).run 32 tune).map tuneView =
      .ok (some (List.replicate 6 true), [some (.simple ⟨[32767, 20000, 0], 3, 1, 1⟩), none, some (.simple ⟨[0, 524288], 2, 0, 1⟩)], some 3) := by
    decide +kernel
  obtain ⟨s, e⟩ := C80_never_faults_partial 2 32 tune (by decide) (tune_legal 32)
  rw [e] at h
  have h : tuneView s = _ := Except.ok.inj h
  unfold tuneView at h
  simp only [Prod.mk.injEq, List.map_cons, List.map_nil, List.cons.injEq, and_true] at h
  obtain ⟨h1, ⟨h2, h3, h4⟩, h5⟩ := h
  obtain ⟨t, ht, e3⟩ := Option.map_eq_some_iff.1 h1
  simp only [List.replicate, List.cons.injEq, and_true, decide_eq_true_eq, Bool.not_eq_true'] at e3
  obtain ⟨b1, b2, b3, b4, b5, b6⟩ := e3
  obtain ⟨id, i1, i2⟩ := Option.bind_eq_some_iff.1 h2
  obtain ⟨id', i3, i4⟩ := Option.bind_eq_some_iff.1 h4
  have p0 : s.iw.Plays 3 0 (.values [32767, 20000, 0] 1 1) := ⟨id, _, i1, i2, by decide +kernel⟩
  have p2 : s.iw.Plays 3 2 (.values [0, 524288] 0 1) := ⟨id', _, i3, i4, by decide +kernel⟩
  have hn : (s.iw.instrs 3).sequences 1 = none := by
    have hinv := ((TWorld.Inv.init 2).run (fuel := 32) tune (by decide) (tune_legal 32))
    rw [e] at hinv
    have hinv : s.Inv (0 + tune.length) 2 := hinv
    obtain ⟨A, hA, -⟩ := hinv.good
    cases q : (s.iw.instrs 3).sequences 1 with
    | none => rfl
    | some id =>
      obtain ⟨-, -, q', hq, -⟩ := hA.inv.live 3 1 id q
      rw [q, Option.bind_some, hq] at h3
      cases h3
  refine ⟨s, t, e, ht, C110_within (tune_legal 32) (by decide) e h5 (by decide) p0 (by decide) (by decide) ?_,
    C110_without (tune_legal 32) (by decide) e h5 (by decide) hn,
    C110_within (tune_legal 32) (by decide) e h5 (by decide) p2 (by decide) (by decide) ?_, fun _ r hr => ?_⟩
  · intro v hv
    simp only [List.mem_cons, List.not_mem_nil, or_false] at hv
    rcases hv with rfl | rfl | rfl <;> omega
  · intro v hv
    simp only [List.mem_cons, List.not_mem_nil, or_false] at hv
    rcases hv with rfl | rfl <;> omega
  · refine C110_volume (tune_legal 32) (by decide) e ht b1 b2 b3 b4 (by decide) b5 h5 (.inr ⟨_, p0, ?_⟩) hr b6 0 (by decide)
    intro v hv
    simp only [List.mem_cons, List.not_mem_nil, or_false] at hv
    rcases hv with rfl | rfl | rfl <;> omega

/-- 0 has to be included: a sequence that is set while a track uses the instrument shows 0 at first, though 100 is the lowest value written. -/
example : (({} : TWorld).run 8 [.init 0 16385, .track 0 (.attach 44100 2 0), .track 0 (.instrument (some 0)),
    .setSequence 0 0 (.values [100, 200] 0 2)]).map (fun s => (s.iw.links.owner 0, s.iw.value 0 0)) = .ok (some 0, 0) := by decide +kernel

end BK

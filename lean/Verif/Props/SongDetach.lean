import Verif.Lemmas.Concert
import Verif.Props.Score
/-!
C95: detaching a track takes out this track and nothing else.
-/
namespace BK

variable {υ : Type} {N : Nat} {p : Program υ}

/-- C95: if a track of a song is detached between requests, and it is not the only one, the song goes on:
everything that is known of songs (C83 to C86) holds further on.  Clocks, times and frames that are not
yet read stay as they are, and so do the other tracks, their order, and all instruments. -/
theorem C95_goes_on_partial (hp : p.Plays N) {T : Int} {x : Ctx (Band υ)} (h : Song N p T x) (id : Nat)
    (hne : ∃ y ∈ x.user.ids, y ≠ id) :
    Song N p T (x.detachTrack id) ∧ (x.detachTrack id).clocks = x.clocks ∧ (x.detachTrack id).currentTime = x.currentTime ∧
      (x.detachTrack id).deltaTime = x.deltaTime ∧ (x.detachTrack id).chans = x.chans ∧
      (x.detachTrack id).user.user = x.user.user ∧
      (x.detachTrack id).user.ids = x.user.ids.filter (fun y => decide (y ≠ id)) ∧ (x.detachTrack id).world.iw = x.world.iw ∧
      ∀ y, y ≠ id → (x.detachTrack id).world.tracks y = x.world.tracks y := by
  obtain ⟨hb, hw, hu⟩ := (h.ok hp).band
  have hids : (x.detachTrack id).user.ids = x.user.ids.filter (fun y => decide (y ≠ id)) := by
    rcases Ctx.detachTrack_eq hb rfl id with ⟨hi, e⟩ | ⟨t, u, hi, h1, h2, h3, h4, e⟩
    · rw [e]
      refine (List.filter_eq_self.2 fun y hy => ?_).symm
      rw [decide_eq_true_eq]
      rintro rfl
      exact hi hy
    · rw [e]
      dsimp only
      rw [hb.nodup.erase_eq_filter]
      refine List.filter_congr fun y _ => ?_
      by_cases hy : y = id <;> simp [hy]
  have hun : (x.detachTrack id).units ≠ [] := by
    obtain ⟨y, hy, hyi⟩ := hne
    rcases Ctx.detachTrack_eq hb rfl id with ⟨hi, e⟩ | ⟨t, u, hi, h1, h2, h3, h4, e⟩
    · rw [e]
      intro c
      have := hb.len
      rw [c] at this
      rw [List.length_eq_zero_iff.1 this] at hy
      cases hy
    · rw [e]
      dsimp only
      intro c
      have := dropUnit_length x.user.ids x.units hb.len.symm hi
      rw [c] at this
      have h0 := List.length_eq_zero_iff.1 this.symm
      have hm := (List.mem_erase_of_ne hyi).2 hy
      rw [h0] at hm
      cases hm
  refine ⟨h.detach hun, ?_, ?_, ?_, ?_, ?_, hids, ?_, ?_⟩
  iterate 5
    rcases Ctx.detachTrack_eq hb rfl id with ⟨hi, e⟩ | ⟨t, u, hi, h1, h2, h3, h4, e⟩ <;> rw [e]
  · rcases Ctx.detachTrack_eq hb rfl id with ⟨hi, e⟩ | ⟨t, u, hi, h1, h2, h3, h4, e⟩ <;> rw [e] <;> rfl
  · intro y hy
    rcases Ctx.detachTrack_eq hb rfl id with ⟨hi, e⟩ | ⟨t, u, hi, h1, h2, h3, h4, e⟩
    · rw [e]
    · rw [e]
      unfold Ctx.world TWorld.withUnits
      dsimp only
      rw [upd_ne _ _ hy, coreOf_drop y _ _ hb.len.symm hb.nodup hi, if_neg hy]

/-- C95: the track itself is no longer in a context, and keeps all that is set: attributes, effects and
arpeggio read the same as before, and it keeps its instrument and its sample. -/
theorem C95_kept_partial (hp : p.Plays N) {T : Int} {x : Ctx (Band υ)} (h : Song N p T x) {id : Nat} {t : Track}
    (ht : x.world.tracks id = some t) :
    ∃ t', (x.detachTrack id).world.tracks id = some t' ∧ t'.ctx = none ∧ id ∉ (x.detachTrack id).user.ids ∧
      (∀ a, t'.getAttr a = t.getAttr a) ∧ (∀ f, t'.getEffect f = t.getEffect f) ∧ t'.getArpeggio = t.getArpeggio ∧
      (x.detachTrack id).world.iw = x.world.iw ∧ t'.dataId = t.dataId ∧ t'.unit.toUCore = t.unit.toUCore := by
  obtain ⟨hb, hw, hu⟩ := (h.ok hp).band
  rcases Ctx.detachTrack_eq hb rfl id with ⟨hi, e⟩ | ⟨v, u, hi, h1, h2, h3, h4, e⟩
  · rw [e]
    refine ⟨t, ht, ?_, hi, fun _ => rfl, fun _ => rfl, rfl, rfl, rfl, rfl⟩
    obtain ⟨P, S, hr⟩ : ∃ (F : Nat) (S : List Int), T = F ∧ Recording N p F x S := C85_recorded_partial hp h
    obtain ⟨Q, hq⟩ := hr.2.tells hp
    unfold Ctx.world TWorld.withUnits at ht
    dsimp only at ht
    rw [coreOf_none _ _ hi, Option.map_id'] at ht
    exact hq.loose id t ht hi
  · have ht' : t = { v with unit := u } := by
      unfold Ctx.world TWorld.withUnits at ht
      dsimp only at ht
      rw [h1, h4] at ht
      cases ht
      rfl
    subst ht'
    refine ⟨({ v with unit := u } : Track).detach, ?_, rfl, ?_, ?_, fun f => ?_, rfl, ?_, rfl, ?_⟩
    · rw [e]
      unfold Ctx.world TWorld.withUnits
      dsimp only
      rw [upd_self, coreOf_drop id _ _ hb.len.symm hb.nodup hi, if_pos rfl]
      rfl
    · rw [e]
      exact hb.nodup.not_mem_erase
    · intro a
      unfold Track.detach
      rw [if_neg h2.ctx]
      cases a <;> rfl
    · cases f <;> rfl
    · rw [e]; rfl
    · unfold Track.detach
      rw [if_neg h2.ctx]

/-- C95: it can be attached again, then or later. -/
theorem C95_again_partial (hp : p.Plays N) {T : Int} {x : Ctx (Band υ)} (h : Song N p T x) {id : Nat} {t : Track}
    (ht : x.world.tracks id = some t) (hc : t.ctx = none) :
    ∃ x' t', x.attachTrack id = .ok x' ∧ Song N p T x' ∧ x'.user.ids = x.user.ids ++ [id] ∧ x'.world.tracks id = some t' ∧
      t'.ctx = some (x.sampleRate, (N : Int)) ∧ ∀ y, y ≠ id → x'.world.tracks y = x.world.tracks y := by
  obtain ⟨hb, hw, hu⟩ := (h.ok hp).band
  have hi : id ∉ x.user.ids := by
    intro hi
    obtain ⟨v, h1, h2⟩ := hb.ins id hi
    obtain ⟨u, h3, h4⟩ := coreOf_some x.user.ids x.units hi hb.len.symm
    unfold Ctx.world TWorld.withUnits at ht
    dsimp only at ht
    rw [h1, h4] at ht
    cases ht
    exact h2.ctx hc
  have ht0 : x.user.world.tracks id = some t := by
    unfold Ctx.world TWorld.withUnits at ht
    dsimp only at ht
    rw [coreOf_none _ _ hi, Option.map_id'] at ht
    exact ht
  obtain ⟨x', e, h'⟩ := (C83_calls_partial hp h).2 id
  have e' := e
  unfold Ctx.attachTrack at e'
  rw [ht0] at e'
  dsimp only at e'
  obtain ⟨r, h1, e'⟩ := bind_ok_iff.1 e'
  have hr : r.1 = .ok ∧ r.2.ctx = some (x.sampleRate, (N : Int)) := by
    unfold Track.attach at h1
    rw [hc] at h1
    dsimp only at h1
    obtain ⟨v, h2, h1⟩ := bind_ok_iff.1 h1
    cases h1
    exact ⟨rfl, (Track.updateUnit_ctx h2).trans (by rw [hw])⟩
  rw [hr.1] at e'
  cases e'
  refine ⟨_, { r.2 with unit := { toUCore := r.2.unit.toUCore, time := x.deltaTime } }, e, h', rfl, ?_, hr.2, ?_⟩
  · unfold Ctx.world TWorld.withUnits
    dsimp only
    rw [upd_self, coreOf_append hb.len.symm hi, if_pos rfl]
    rfl
  · intro y hy
    unfold Ctx.world TWorld.withUnits
    dsimp only
    rw [upd_ne _ _ hy, coreOf_append hb.len.symm hi, if_neg hy]

/-- Two tracks with different notes. -/
def duoCalls : List WOp := beepCalls ++ [.init 1 16386, .track 1 (.attr .masterVolume 16384), .track 1 (.attr .note 90177536)]

/-- Both are attached. -/
def duoSong : C (Ctx (Band Unit)) := do
  let x ← beepCtx.perform duoCalls
  let x ← x.attachTrack 0
  x.attachTrack 1

theorem duoSong_song : ∃ x, duoSong = .ok x ∧ Song 2 tickTrack 0 x ∧ x.user.ids = [0, 1] := by
  have h0 : Song 2 tickTrack 0 beepCtx := .clock (.init (by decide) (by decide)) rfl rfl (by decide) (by decide)
  obtain ⟨x, e, h, -⟩ := (C83_calls_partial tickTrack_plays h0).1 duoCalls (by
      intro op hop
      unfold duoCalls beepCalls at hop
      simp only [List.mem_cons, List.cons_append, List.nil_append, List.not_mem_nil, or_false] at hop
      rcases hop with rfl | rfl | rfl | rfl | rfl | rfl | rfl | rfl <;> trivial) (by
    refine TWorld.LegalRun.of_all _ _ ?_
    intro op hop s
    unfold duoCalls beepCalls at hop
    have hp : ∀ v : Int, -2147483647 ≤ v → v ≤ 2147483647 → Plain v := fun v => Plain.of
    simp only [List.mem_cons, List.cons_append, List.nil_append, List.not_mem_nil, or_false] at hop
    rcases hop with rfl | rfl | rfl | rfl | rfl | rfl | rfl | rfl
    · exact hp _ (by decide) (by decide)
    · exact fun t _ => ⟨hp _ (by decide) (by decide), trivial⟩
    · refine ⟨?_, ?_, ?_⟩ <;> simp [NewSeq.Short, NewSeq.Usual, NewSeq.Modest, seqLimit, InI32]
    · exact fun t _ => trivial
    · exact fun t _ => ⟨hp _ (by decide) (by decide), trivial⟩
    · exact hp _ (by decide) (by decide)
    · exact fun t _ => ⟨hp _ (by decide) (by decide), trivial⟩
    · exact fun t _ => ⟨hp _ (by decide) (by decide), trivial⟩)
  obtain ⟨x1, e1, h1⟩ := (C83_calls_partial tickTrack_plays h).2 0
  obtain ⟨x2, e2, h2⟩ := (C83_calls_partial tickTrack_plays h1).2 1
  have hs : duoSong = .ok x2 := by unfold duoSong; rw [e, ok_bind, e1, ok_bind]; exact e2
  refine ⟨x2, hs, h2, ?_⟩
  have hn : (duoSong.map fun x => x.user.ids) = .ok [0, 1] := by decide +kernel
  rw [hs] at hn
  injection hn

/-- A song in which one of two tracks is detached, and attached again. -/
example : ∃ x x', duoSong = .ok x ∧ Song 2 tickTrack 0 (x.detachTrack 0) ∧ (x.detachTrack 0).user.ids = [1] ∧
    (x.detachTrack 0).attachTrack 0 = .ok x' ∧ Song 2 tickTrack 0 x' ∧ x'.user.ids = [1, 0] := by
  obtain ⟨x, e, h, hi⟩ := duoSong_song
  obtain ⟨h1, -, -, -, -, -, h2, -⟩ := C95_goes_on_partial tickTrack_plays h 0 ⟨1, by rw [hi]; decide, by decide⟩
  rw [hi] at h2
  have hx : ∃ t, x.world.tracks 0 = some t := by
    have hn : (duoSong.map fun x => (x.world.tracks 0).isSome) = .ok true := by decide +kernel
    rw [e] at hn
    have hn : (x.world.tracks 0).isSome = true := by injection hn
    exact Option.isSome_iff_exists.1 hn
  obtain ⟨t, ht⟩ := hx
  obtain ⟨t', k1, k2, -⟩ := C95_kept_partial tickTrack_plays h ht
  obtain ⟨x', -, a1, a2, a3, -⟩ := C95_again_partial tickTrack_plays h1 k1 k2
  exact ⟨x, x', e, h1, h2, a1, a2, by rw [a3, h2]; rfl⟩

/-- C95 does not hold for the only track: the song does not go on, as nothing is rendered any more
(C39). -/
theorem C95_refuted : (do
    let x ← beepSong
    let a ← x.generate false tickTrack.cb 6
    let b ← (a.2.1.detachTrack 0).generate false tickTrack.cb 6
    return [a.1, b.1] : C (List Int)) = .ok [6, 0] := by decide +kernel

/-- C95 does not say that a track which is detached and at once attached again plays on as if nothing
had happened: the time to the next step of its wave is lost, and the step comes at once. -/
theorem C95_again_refuted : (do
    let x ← duoSong
    let a ← x.generate false tickTrack.cb 6
    let y ← (a.2.1.detachTrack 1).attachTrack 1
    let b ← a.2.1.generate false tickTrack.cb 12
    let c ← y.generate false tickTrack.cb 12
    return (a.2.1.units.map BUnit.time, y.units.map BUnit.time, b.2.2.isPerm c.2.2) : C (List Int × List Int × Bool)) =
      .ok ([202269, 75471], [202269, 0], false) := by decide +kernel

end BK

import Verif.Lemmas.Refine2
import Verif.Props.Song
import Verif.Props.Current
/-!
C84: in a song, tracks behave as their calls say.
-/
namespace BK

variable {υ : Type} {N : Nat} {p : Program υ}

/-- C84: the tracks and instruments of a song are in the state that results from making the calls of the
program one after another on tracks and instruments, apart from a context, with only rendering between.
The calls are those which the program made, between requests and while clocks ticked: none is lost, made
twice, or made in another order. -/
theorem C84_refines_partial (hp : p.Plays N) {T : Int} {x : Ctx (Band υ)} (h : Song N p T x) :
    ∃ (fuel : Nat) (ops : List WOp), ops.length ≤ fuel ∧ ({} : TWorld).LegalRun N fuel ops ∧
      ({} : TWorld).run fuel ops = .ok x.world ∧ ops.filter WOp.isCall = x.user.log := by
  obtain ⟨ops, h1, h2⟩ := h.heard hp
  obtain ⟨k1, k2⟩ := h2 ops.length (Nat.le_refl _)
  exact ⟨ops.length, ops, Nat.le_refl _, k1, k2, h1⟩

/-- C84: so attributes of a track are in range at any time in a song. -/
theorem C84_reported_partial (hp : p.Plays N) {T : Int} {x : Ctx (Band υ)} (h : Song N p T x) {y : Nat} {t : Track}
    (ht : x.world.tracks y = some t) {a : TAttr} {v : Int} (hv : t.getAttr a = .ok (some v)) : a.Reported v := by
  obtain ⟨fuel, ops, h1, h2, h3, -⟩ := C84_refines_partial hp h
  exact C81_reported_in_range_partial N fuel ops h1 h2 x.world h3 y t ht a v hv

theorem stale_filter (y : Nat) (q : Part) (ops : List WOp) : stale y q (ops.filter WOp.isCall) = stale y q ops := by
  unfold stale
  generalize false = b
  induction ops generalizing b with
  | nil => rfl
  | cons op ops ih =>
    by_cases h : op.isCall = true
    · rw [List.filter_cons_of_pos h, List.foldl_cons, List.foldl_cons, ih]
    · rw [List.filter_cons_of_neg h, List.foldl_cons, ih]
      congr 1
      cases op with
      | track z o =>
        cases o <;> first | exact absurd rfl h | skip
        all_goals
          unfold WOp.stale
          dsimp only
          split <;> cases q <;> cases b <;> rfl
      | _ => exact absurd rfl h

/-- C84: at any time in a song, a track that is attached and has no running effect goes on with what is
set, whenever it is rendered next, unless the last calls on it are among those listed in `TOp.upsets`. -/
theorem C84_heard_is_set_partial (hp : p.Plays N) {T : Int} {x : Ctx (Band υ)} (h : Song N p T x) {y : Nat} {t : Track}
    (ht : x.world.tracks y = some t) (hc : t.ctx ≠ none) (he : t.effectsOff) (hs : ∀ q, stale y q x.user.log = false) :
    (∀ e, t.run y x.world.iw e = t.runAfresh y x.world.iw e) ∧
    ∀ e r, t.run y x.world.iw e = .ok r → r.1.VolNow y x.world.iw ∧ r.1.NoteNow y x.world.iw ∧ r.1.DutyNow y x.world.iw := by
  obtain ⟨fuel, ops, h1, h2, h3, h4⟩ := C84_refines_partial hp h
  have hs' : ∀ q, stale y q ops = false := fun q => by rw [← stale_filter, h4]; exact hs q
  exact ⟨fun e => C82_nothing_lost_partial h1 h2 h3 ht hc he hs' e,
    fun e r hr => C82_heard_is_set_partial h1 h2 h3 ht hc he hs' hr⟩

/-- After 40 frames of the song, 20 ticks have been made by the clock. -/
example : (do
    let x ← beepSong
    let a ← x.generate false tickTrack.cb 40
    return (a.2.1.user.log.length, a.2.1.user.log.countP fun op => match op with | .track 0 .tick => true | _ => false,
      a.2.1.units.map (·.time)) : C (Nat × Nat × List Int)) = .ok (26, 20, [0]) := by decide +kernel

/-- The track of that song is attached, has no running effect, and was given a note after it was
attached. -/
example : ∃ x, beepSong = .ok x ∧ ∃ x' t, x.perform [.track 0 (.attr .note 50331648)] = .ok x' ∧ Song 2 tickTrack 0 x' ∧
    x'.world.tracks 0 = some t ∧ t.ctx ≠ none ∧ t.effectsOff ∧ ∀ q, stale 0 q x'.user.log = false := by
  obtain ⟨x, e, h, hne⟩ := beepSong_song
  obtain ⟨x', e', h', -⟩ := (C83_calls_partial tickTrack_plays h).1 [.track 0 (.attr .note 50331648)] (by
      intro op hop
      rw [List.mem_singleton] at hop
      subst hop
      trivial) ⟨fun t _ => ⟨Plain.of (by decide) (by decide), trivial⟩, fun _ _ => trivial⟩
  have hd : (do
      let x ← beepSong
      let x ← x.perform [.track 0 (.attr .note 50331648)]
      return ((x.world.tracks 0).map fun t => [t.ctx.isSome, t.volumeSlide, t.panningSlide, t.tremoloOn, t.portamento, t.vibratoOn],
        [stale 0 .vol x.user.log, stale 0 .note x.user.log, stale 0 .duty x.user.log]) : C (Option (List Bool) × List Bool)) =
      .ok (some [true, false, false, false, false, false], [false, false, false]) := by decide +kernel
  rw [e, ok_bind, e', ok_bind] at hd
  have hd := Except.ok.inj hd
  have h1 := congrArg Prod.fst hd
  have h2 := congrArg Prod.snd hd
  dsimp only at h1 h2
  obtain ⟨t, ht, h1⟩ := Option.map_eq_some_iff.1 h1
  simp only [List.cons.injEq, and_true] at h1 h2
  refine ⟨x, e, x', t, e', h', ht, ?_, ⟨h1.2.1, h1.2.2.1, h1.2.2.2.1, h1.2.2.2.2.1, h1.2.2.2.2.2⟩, ?_⟩
  · intro hn
    rw [hn] at h1
    exact absurd h1.1 (by simp)
  · intro q
    cases q
    · exact h2.1
    · exact h2.2.1
    · exact h2.2.2

end BK

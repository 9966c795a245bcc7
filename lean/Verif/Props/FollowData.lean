import Verif.Lemmas.FollowData2
import Verif.Props.Current
/-!
C100: a track follows the data object that it plays.
-/
namespace BK

/-- No sequence of usual calls faults. -/
theorem C100_never_faults_partial (N fuel : Nat) (ops : List AOp) (hf : ops.length ≤ fuel) (hl : ({} : AWorld).LegalRun N fuel ops) :
    ∃ s, ({} : AWorld).run fuel ops = .ok s := by
  obtain ⟨s, e, -⟩ := AWorld.Inv.run ops (AWorld.Inv.init N) (by omega) hl
  exact ⟨s, e⟩

/-- C100: after any usual calls every track that plays a waveform or a sample plays the present contents of the object that it
reports. -/
theorem C100_follows_partial (N fuel : Nat) (ops : List AOp) (s : AWorld) (hf : ops.length ≤ fuel)
    (hl : ({} : AWorld).LegalRun N fuel ops) (h : ({} : AWorld).run fuel ops = .ok s) : s.Follows := by
  obtain ⟨s', e, hi⟩ := AWorld.Inv.run ops (AWorld.Inv.init N) (by omega) hl
  rw [h] at e
  cases e
  intro x t ht hw
  obtain ⟨d, h1, -, h3⟩ := hi.bound x t ht hw
  refine ⟨d, ?_, h3⟩
  unfold Track.getSample
  rw [if_pos hw]; exact h1

/-- C100: changing an object changes no track that has another one, no instrument and no other object; whatever the state. -/
theorem C100_others (fuel : Nat) (s s' : AWorld) (d : Nat) (op : AOp)
    (ho : (∃ new, op = .setFrames d new) ∨ (∃ p, op = .setPitch d p) ∨ op = .detachData d ∨ op = .disposeData d)
    (e : s.exec fuel op = .ok s') :
    (∀ x t, s.tw.tracks x = some t → t.dataId ≠ some d → s'.tw.tracks x = some t) ∧ s'.tw.iw = s.tw.iw ∧
    ∀ d', d' ≠ d → s'.datas d' = s.datas d' := by
  have tell : ∀ {s0 s1 : AWorld} {new : Option SampleData}, s0.tell d new = .ok s1 →
      (∀ x t, s0.tw.tracks x = some t → t.dataId ≠ some d → s1.tw.tracks x = some t) ∧ s1.tw.iw = s0.tw.iw ∧ s1.datas = s0.datas := by
    intro s0 s1 new h
    unfold AWorld.tell at h
    obtain ⟨ts, hts, h⟩ := bind_ok_iff.1 h
    cases h
    refine ⟨fun x t ht hd => ?_, rfl, rfl⟩
    refine foldlM_inv (P := fun ts : Nat → Option Track => ts x = some t) ?_ _ ht hts
    intro ts y ts' hP h1
    unfold AWorld.tellOne at h1
    split at h1
    · cases h1; exact hP
    · rename_i u hu
      split at h1
      · rename_i hdu
        obtain ⟨u', -, h1⟩ := bind_ok_iff.1 h1
        cases h1
        have k : x ≠ y := fun k => by
          subst k
          rw [hP] at hu; cases hu
          exact hd hdu
        show upd _ _ _ x = _
        rw [upd_ne _ _ k]; exact hP
      · cases h1; exact hP
  unfold AWorld.exec at e
  rcases ho with ⟨new, rfl⟩ | ⟨p, rfl⟩ | rfl | rfl <;> dsimp only at e
  · split at e
    · cases e; exact ⟨fun _ _ h _ => h, rfl, fun _ _ => rfl⟩
    · obtain ⟨h1, h2, h3⟩ := tell e
      exact ⟨h1, h2, fun d' hd => by rw [h3]; exact upd_ne _ _ hd⟩
  · cases e; exact ⟨fun _ _ h _ => h, rfl, fun d' hd => upd_ne _ _ hd⟩
  · obtain ⟨h1, h2, h3⟩ := tell e
    exact ⟨h1, h2, fun d' hd => by rw [h3]⟩
  · obtain ⟨s1, e1, e⟩ := bind_ok_iff.1 e
    cases e
    obtain ⟨h1, h2, h3⟩ := tell e1
    exact ⟨h1, h2, fun d' hd => by
      show upd s1.datas d {} d' = _
      rw [upd_ne _ _ hd, h3]⟩

/-- C100: after detaching or disposing an object no track has it.  The tracks that played it play nothing. -/
theorem C100_gone_partial (N fuel : Nat) (ops : List AOp) (s : AWorld) (d : Nat) (op : AOp) (ho : op = .detachData d ∨ op = .disposeData d)
    (hf : ops.length ≤ fuel) (hl : ({} : AWorld).LegalRun N fuel ops) (h : ({} : AWorld).run fuel ops = .ok s) (hn : op.Legal N s) :
    ∃ s', s.exec fuel op = .ok s' ∧ (∀ x t, s'.tw.tracks x = some t → t.dataId ≠ some d ∧ t.getSample ≠ some d) ∧
      (∀ x t t', s.tw.tracks x = some t → t.dataId = some d → s'.tw.tracks x = some t' →
        t'.unit.waveform ≠ .custom ∧ t'.unit.waveform ≠ .sample) ∧
      (op = .disposeData d → s'.datas d = {}) := by
  obtain ⟨s0, e, hi⟩ := AWorld.Inv.run ops (AWorld.Inv.init N) (by omega) hl
  rw [h] at e
  cases e
  have own : ∀ t : Track, t.dataId ≠ some d → t.dataId ≠ some d ∧ t.getSample ≠ some d := fun t k => ⟨k, by
    unfold Track.getSample
    split
    · exact k
    · exact fun k => nomatch k⟩
  rcases ho with rfl | rfl
  · obtain ⟨s', h1, h2, h3, h4, h5, h6⟩ := hi.gone hn
    exact ⟨s', h1, fun x t ht => own t (h4 x t ht), h6, fun k => nomatch k⟩
  · obtain ⟨s', h1, h2, h3, h4, h5, h6⟩ := hi.gone hn
    refine ⟨{ s' with datas := upd s'.datas d {} }, ?_, fun x t ht => own t (h4 x t ht), h6, fun _ => upd_self _ _ _⟩
    unfold AWorld.exec
    dsimp only
    rw [h1]; rfl

/-- C100: a track that was not cleared is in tune with its data.  After any usual calls it renders exactly what it would render if
it computed volumes, period and duty cycle afresh, unless its last calls are among those listed in `TOp.upsets`, whatever the
data objects went through meanwhile. -/
theorem C100_in_tune_partial (N fuel : Nat) (ops : List AOp) (s : AWorld) (x : Nat) (t : Track) (hf : ops.length ≤ fuel)
    (hl : ({} : AWorld).LegalRun N fuel ops) (h : ({} : AWorld).run fuel ops = .ok s) (hx : ∀ op ∈ ops, ¬ op.clears x)
    (ht : s.tw.tracks x = some t) (hc : t.ctx ≠ none) (he : t.effectsOff) (hs : ∀ p, aStale x p ops = false) (e : Int) :
    t.run x s.tw.iw e = t.runAfresh x s.tw.iw e := by
  have k : ∀ p, t.Ok x s.tw.iw p := fun p =>
    AWorld.run_tone ops (AWorld.Inv.init N) (by omega) hl hx (fun t h => nomatch h) (fun _ t h => nomatch h) h (hs p) t ht
  unfold Track.runAfresh
  rw [C82_same_instrument, ok_bind]
  unfold Track.run
  rw [Track.updateUnit_flagAll k hc he.1 he.2.1 he.2.2.1 he.2.2.2.1 he.2.2.2.2]

/-- C100: its period is the one of its note and the number of frames that it plays. -/
theorem C100_period_partial (N fuel : Nat) (ops : List AOp) (s : AWorld) (x : Nat) (t : Track) (hf : ops.length ≤ fuel)
    (hl : ({} : AWorld).LegalRun N fuel ops) (h : ({} : AWorld).run fuel ops = .ok s) (hx : ∀ op ∈ ops, ¬ op.clears x)
    (ht : s.tw.tracks x = some t) (hc : t.ctx ≠ none) (he : t.effectsOff) (hs : ∀ p, aStale x p ops = false) {e : Int}
    {r : Track × List Pulse} (hr : t.run x s.tw.iw e = .ok r) : r.1.NoteNow x s.tw.iw := by
  have k : ∀ p, t.Ok x s.tw.iw p := fun p =>
    AWorld.run_tone ops (AWorld.Inv.init N) (by omega) hl hx (fun t h => nomatch h) (fun _ t h => nomatch h) h (hs p) t ht
  have hp : s.tw.iw.Pointed x := by
    obtain ⟨s0, e, hi⟩ := AWorld.Inv.run ops (AWorld.Inv.init N) (by omega) hl
    rw [h] at e
    cases e
    exact hi.tw.good.pointed x
  have k' : ∀ p, r.1.Ok x s.tw.iw p := fun p =>
    Track.Ok.exec (op := .run e) (r := (s.tw.iw, r.1)) hp (Or.inr ⟨k p, by cases p <;> rfl⟩) (by
      unfold Track.exec; dsimp only; rw [hr]; rfl)
  obtain ⟨c1, c2, sb⟩ := Track.run_clean hr
  exact k' .note c2.1 (by rw [sb.portamento]; exact he.2.2.2.1) (by rw [sb.vibratoOn]; exact he.2.2.2.2)

/-! ### Examples -/

/-- A test for usual arguments. -/
def SampleData.fits (d : SampleData) : Bool :=
  decide (1 ≤ d.numChannels ∧ d.numChannels ≤ 8 ∧ 0 ≤ d.numFrames ∧ d.numFrames * d.numChannels ≤ 2147483647 ∧
    (d.frames.length : Int) = d.numFrames * d.numChannels ∧ d.numFrames ≤ 1073741824) &&
  d.frames.all fun v => decide (-32768 ≤ v ∧ v ≤ 32767)

theorem SampleData.fits_wf {d : SampleData} (h : d.fits = true) : d.Wf ∧ d.numFrames ≤ 1073741824 := by
  unfold SampleData.fits at h
  rw [Bool.and_eq_true, decide_eq_true_eq, List.all_eq_true] at h
  obtain ⟨⟨h1, h2, h3, h4, h5, h6⟩, h7⟩ := h
  exact ⟨⟨⟨h1, h2⟩, ⟨h3, h4⟩, h5, fun v hv => of_decide_eq_true (h7 v hv)⟩, h6⟩

def AWorld.users (s : AWorld) (d : Nat) (f : Track → Bool) : Bool :=
  s.known.all fun x => match s.tw.tracks x with
    | none => true
    | some t => decide (t.dataId ≠ some d) || (t.ctx.isSome && f t)

theorem AWorld.users_all {n N : Nat} {s : AWorld} (hi : s.Inv n N) {d : Nat} {f : Track → Bool} (h : s.users d f = true) :
    ∀ x t, s.tw.tracks x = some t → t.dataId = some d → t.ctx ≠ none ∧ f t = true := by
  intro x t ht hd
  have k := List.all_eq_true.1 h x (hi.known x t ht)
  rw [ht] at k
  dsimp only at k
  rw [Bool.or_eq_true, Bool.and_eq_true, decide_eq_true_eq] at k
  rcases k with k | ⟨k, k'⟩
  · exact absurd hd k
  · exact ⟨(fun e => by rw [e] at k; cases k), k'⟩

def AOp.usual (N : Nat) (s : AWorld) : AOp → Bool
  | .call (.init _ wf) => decide (-2147483647 ≤ wf ∧ wf ≤ 2147483647)
  | .call (.track _ (.attr .masterVolume v)) => decide (-2147483647 ≤ v ∧ v ≤ 2147483647)
  | .call (.track _ (.attr .note v)) => decide (-2147483647 ≤ v ∧ v ≤ 2147483647)
  | .call (.track _ (.attach rate chans _)) => decide (16000 ≤ rate ∧ rate ≤ 96000 ∧ chans = N)
  | .call (.track _ .clear) => true
  | .call (.track _ .tick) => true
  | .play x _ (some d) => (s.datas d).data.fits && decide (-48 * 1048576 ≤ (s.datas d).pitch ∧ (s.datas d).pitch ≤ 48 * 1048576) &&
    (match s.tw.tracks x with
    | none => true
    | some t => !t.unit.sustainRange)
  | .setFrames d new => new.fits && s.users d fun t => decide (t.unit.waveform ≠ .sample ∨ new.numChannels = 1 ∨ new.numChannels = N)
  | .setPitch _ _ => true
  | .detachData d => s.users d fun _ => true
  | .disposeData d => s.users d fun _ => true
  | _ => false

theorem AOp.usual_legal {n N : Nat} {s : AWorld} (hi : s.Inv n N) {op : AOp} (h : op.usual N s = true) : op.Legal N s := by
  unfold AOp.usual at h
  split at h
  · have h := of_decide_eq_true h
    exact ⟨Plain.of h.1 h.2, fun _ _ _ k => nomatch k⟩
  · have h := of_decide_eq_true h
    exact ⟨fun _ _ => ⟨Plain.of h.1 h.2, trivial⟩, fun _ _ _ k => nomatch k⟩
  · have h := of_decide_eq_true h
    exact ⟨fun _ _ => ⟨Plain.of h.1 h.2, trivial⟩, fun _ _ _ k => nomatch k⟩
  · have h := of_decide_eq_true h
    exact ⟨fun _ _ => h, fun _ _ _ k => nomatch k⟩
  · exact ⟨fun _ _ => trivial, fun _ _ _ k => nomatch k⟩
  · exact ⟨fun _ _ => trivial, fun _ _ _ k => nomatch k⟩
  · rename_i x type d
    rw [Bool.and_eq_true, Bool.and_eq_true, decide_eq_true_eq] at h
    obtain ⟨⟨h1, h2⟩, h3⟩ := h
    refine ⟨fun t ht => ⟨⟨fun a ha => ?_, fun a _ => ?_⟩, fun a ha => ?_⟩, fun k => nomatch k⟩
    · cases ha
      have := SampleData.fits_wf h1
      exact ⟨this.1, fun _ => this.2⟩
    · rw [ht] at h3
      dsimp only at h3
      rw [a] at h3; cases h3
    · cases ha
      exact h2
  · rename_i d new
    rw [Bool.and_eq_true] at h
    refine ⟨fun _ _ _ => SampleData.fits_wf h.1, fun x t ht hd => ?_⟩
    obtain ⟨k1, k2⟩ := AWorld.users_all hi h.2 x t ht hd
    exact ⟨k1, fun hw => (of_decide_eq_true k2).elim (fun k => absurd hw k) id⟩
  · trivial
  · exact fun x t ht hd => (AWorld.users_all hi h x t ht hd).1
  · exact fun x t ht hd => (AWorld.users_all hi h x t ht hd).1
  · cases h

/-- All calls pass the test when their turn comes. -/
def AWorld.usualRun (N fuel : Nat) (s : AWorld) : List AOp → Bool
  | [] => true
  | op :: ops => op.usual N s && match s.exec fuel op with
    | .ok s' => s'.usualRun N fuel ops
    | .error _ => false

theorem AWorld.usualRun_legal {N fuel : Nat} : ∀ (ops : List AOp) {n : Nat} {s : AWorld}, s.Inv n N → n + ops.length ≤ fuel →
    s.usualRun N fuel ops = true → s.LegalRun N fuel ops
  | [], n, s, _, _, _ => trivial
  | op :: ops, n, s, hi, hf, h => by
    unfold AWorld.usualRun at h
    rw [Bool.and_eq_true] at h
    have hl := AOp.usual_legal hi h.1
    rw [List.length_cons] at hf
    refine ⟨hl, fun s' e => ?_⟩
    obtain ⟨s1, e1, hi1⟩ := hi.exec (fuel := fuel) (by omega) hl
    rw [e] at e1
    cases e1
    refine AWorld.usualRun_legal ops hi1 (by omega) ?_
    have h := h.2
    rw [e] at h
    exact h

def eightLongFrames : SampleData := ⟨8, 1, [1000, 2000, 3000, 4000, -1000, -2000, -3000, -4000]⟩

/-- Two tracks play a waveform of four frames, a third one a sample; then the waveform gets eight frames and the sample goes. -/
def followOps : List AOp := [
  .call (.init 0 16385), .call (.init 1 16385), .call (.init 2 16385),
  .call (.track 0 (.attach 44100 2 0)), .call (.track 1 (.attach 44100 2 0)), .call (.track 2 (.attach 44100 2 0)),
  .setFrames 7 ⟨4, 1, [1000, 2000, 3000, 4000]⟩, .setFrames 8 ⟨2, 2, [10, 20, 30, 40]⟩,
  .play 0 .waveform (some 7), .play 1 .waveform (some 7), .play 2 .sample (some 8),
  .call (.track 0 (.attr .masterVolume 6554)), .call (.track 0 (.attr .note 50331648)), .call (.track 0 .tick),
  .setFrames 7 eightLongFrames, .setFrames 8 ⟨3, 1, [1, 2, 3]⟩, .detachData 8]

/-- Waveform, object (-1 if there is none), number of frames of a waveform and frames of some tracks. -/
def followNow (ops : List AOp) (xs : List Nat) : Option (List (List Int)) := do
  let s ← (({} : AWorld).run 32 ops).toOption
  xs.mapM fun x => (s.tw.tracks x).map fun t =>
    t.unit.waveform.code :: (match t.getSample with | some d => (d : Int) | none => -1) :: t.unit.count :: t.unit.frames

theorem follow_usual : ({} : AWorld).usualRun 2 32 followOps = true := by decide +kernel

example : ({} : AWorld).LegalRun 2 32 followOps ∧ (∀ op ∈ followOps, ¬ op.clears 0) ∧ (∀ p, aStale 0 p followOps = false) ∧
    followNow followOps [0, 1, 2] = some [[16390, 7, 8] ++ eightLongFrames.frames, [16390, 7, 8] ++ eightLongFrames.frames, [0, -1, 1]] :=
  ⟨AWorld.usualRun_legal _ (AWorld.Inv.init 2) (by decide) follow_usual, by
    intro op hop
    unfold followOps at hop
    simp only [List.mem_cons, List.not_mem_nil, or_false] at hop
    unfold AOp.clears
    rcases hop with rfl | rfl | rfl | rfl | rfl | rfl | rfl | rfl | rfl | rfl | rfl | rfl | rfl | rfl | rfl | rfl | rfl <;> simp,
   by intro p; cases p <;> decide, by decide +kernel⟩

/-- Before it is detached. -/
example : followNow (followOps.take 16) [0, 2] = some [[16390, 7, 8] ++ eightLongFrames.frames, [16391, 8, 1, 1, 2, 3]] := by decide +kernel

/-- A track that was cleared after its initialisation plays a waveform of four frames, which then gets eight frames. -/
def clearedOps (clear : Bool) : List AOp :=
  [.call (.init 0 16385), .call (.track 0 (.attach 44100 2 0))] ++ (if clear then [.call (.track 0 .clear)] else []) ++
  [.setFrames 7 ⟨4, 1, [1000, 2000, 3000, 4000]⟩, .play 0 .waveform (some 7), .call (.track 0 (.attr .masterVolume 6554)),
   .call (.track 0 (.attr .note 50331648)), .call (.track 0 .tick), .setFrames 7 eightLongFrames]

/-- Period and number of frames of track 0, and whether it renders something else than when it computes everything afresh. -/
def tuneOf (ops : List AOp) : Option (Int × Int × Bool) := do
  let s ← (({} : AWorld).run 32 ops).toOption
  let t ← s.tw.tracks 0
  let r ← (t.run 0 s.tw.iw 104857600).toOption
  let r' ← (t.runAfresh 0 s.tw.iw 104857600).toOption
  return (t.unit.period, t.unit.count, decide (t.ctx ≠ none ∧ t.volumeSlide = false ∧ t.panningSlide = false ∧ t.tremoloOn = false ∧
    t.portamento = false ∧ t.vibratoOn = false ∧ r.2 ≠ r'.2))

theorem cleared_usual : ({} : AWorld).usualRun 2 32 (clearedOps true) = true := by decide +kernel

theorem cleared_tune : (tuneOf (clearedOps true)).map (fun v => (v.2.1, v.2.2)) = some (8, true) ∧
    (tuneOf (clearedOps false)).map (fun v => (v.2.1, v.2.2)) = some (8, false) ∧
    (tuneOf (clearedOps true)).map (fun v => v.1 / 2) = (tuneOf (clearedOps false)).map (fun v => v.1) := by decide +kernel

/-- C100 does not hold for tracks that were cleared or reset: the clearing takes away what brings them in tune with new frames.
With eight frames in place of four such a track plays an octave too low; without the clearing it plays the note. -/
theorem C100_in_tune_refuted : ({} : AWorld).LegalRun 2 32 (clearedOps true) ∧ (∀ p, aStale 0 p (clearedOps true) = false) ∧
    (∃ s t, ({} : AWorld).run 32 (clearedOps true) = .ok s ∧ s.tw.tracks 0 = some t ∧ t.ctx ≠ none ∧ t.effectsOff ∧
      t.unit.count = 8 ∧ t.run 0 s.tw.iw 104857600 ≠ t.runAfresh 0 s.tw.iw 104857600) ∧
    (tuneOf (clearedOps true)).map (fun v => v.1 / 2) = (tuneOf (clearedOps false)).map (fun v => v.1) := by
  have hl := AWorld.usualRun_legal _ (AWorld.Inv.init 2) (by decide) cleared_usual
  refine ⟨hl, by intro p; cases p <;> decide, ?_, cleared_tune.2.2⟩
  obtain ⟨s, e⟩ := C100_never_faults_partial 2 32 (clearedOps true) (by decide) hl
  have k := cleared_tune.1
  unfold tuneOf at k
  rw [e] at k
  cases ht : s.tw.tracks 0 with
  | none => simp [Except.toOption, ht] at k
  | some t =>
    cases h1 : t.run 0 s.tw.iw 104857600 with
    | error f => simp [Except.toOption, ht, h1] at k
    | ok r =>
      cases h2 : t.runAfresh 0 s.tw.iw 104857600 with
      | error f => simp [Except.toOption, ht, h1, h2] at k
      | ok r' =>
        simp only [Except.toOption, ht, h1, h2, Option.bind_eq_bind, Option.bind_some, Option.pure_def, Option.map_some,
          Option.some.injEq, Prod.mk.injEq, decide_eq_true_eq] at k
        obtain ⟨k0, k1, k2, k3, k4, k5, k6, k7⟩ := k
        exact ⟨s, t, e, ht, k1, ⟨k2, k3, k4, k5, k6⟩, k0, fun c => by rw [h1, h2] at c; cases c; exact k7 rfl⟩

end BK

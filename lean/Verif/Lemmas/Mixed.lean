import Verif.Spec.Sound
import Verif.Lemmas.Generate
/-!
The channels of a context hold the steps of all frames that are not yet taken out.
-/
namespace BK

/-- All steps on a channel in a frame, with the arithmetic of the code. -/
def mixedAt (P : List Pulse) (c : Nat) (n : Nat) : Int := wrapI32 (stepsAt P c n)

theorem levelAt_accN (f : Nat → Int) : ∀ n, levelAt f n = accN f n 0
  | 0 => rfl
  | n + 1 => by unfold levelAt accN; rw [levelAt_accN f n]

/-- Channels when `T` frames have been taken out and the steps are `P`. -/
def Mixed (T : Nat) (P : List Pulse) (chans : List Buf) : Prop :=
  ∀ i (h : i < chans.length), chans[i].kernel = kernelHarm ∧ chans[i].accum = levelAt (mixedAt P i) T ∧
    ∀ j, chans[i].frames j = mixedAt P i (T + j)

theorem stepsAt_append (P P' : List Pulse) (c n : Nat) : stepsAt (P ++ P') c n = stepsAt P c n + stepsAt P' c n := by
  unfold stepsAt
  rw [onChan_append, List.map_append, List.sum_append]

theorem onChan_later (c : Nat) (d : Int) (P : List Pulse) : onChan c (P.map (Pulse.later d)) = (onChan c P).map (Pulse.later d) := by
  unfold onChan
  rw [List.filter_map]
  rfl

/-- A step before its time. -/
theorem stepAt_before {t a : Int} {n : Nat} (h : (n : Int) < t / U20) : stepAt t a n = 0 := by
  unfold stepAt
  rw [if_neg (by omega)]

theorem stepsAt_before {P : List Pulse} {T : Nat} (hP : ∀ q ∈ P, 0 ≤ q.time) {c n : Nat} (hn : n < T) :
    stepsAt (P.map (Pulse.later (T * U20))) c n = 0 := by
  unfold stepsAt
  rw [onChan_later, List.map_map]
  have : ∀ q ∈ onChan c P, ((fun q : Pulse => stepAt q.time q.amp n) ∘ Pulse.later (T * U20)) q = 0 := by
    intro q hq
    refine stepAt_before ?_
    have := hP q (onChan_mem hq)
    show (n : Int) < (q.time + T * U20) / U20
    omega
  generalize onChan c P = l at this
  induction l with
  | nil => rfl
  | cons q l ih =>
    rw [List.map_cons, List.sum_cons, this q (List.mem_cons_self ..), ih fun r hr => this r (List.mem_cons_of_mem _ hr)]
    rfl

theorem contrib_stepAt {b : Buf} (hb : b.time = 0) (hk : b.kernel = kernelHarm) {q : Pulse} (h0 : 0 ≤ q.time) (h1 : q.time ≤ 4294967295)
    (T j : Nat) : b.contrib q.op j = stepAt (q.later (T * U20)).time (q.later (T * U20)).amp (T + j) := by
  obtain ⟨o1, o2⟩ := BOk.offset hb h0 h1
  show rowContrib (b.kernel.getD (b.phaseOf q.time) []) q.amp (b.offsetOf q.time) 32 j = stepAt (q.time + T * U20) q.amp (T + j)
  rw [hk]
  unfold rowContrib stepAt
  have e1 : (q.time + (T : Int) * U20) / U20 = q.time / U20 + T := by omega
  have e2 : (q.time + (T : Int) * U20) % U20 = q.time % U20 := by omega
  rw [e1, e2]
  have e3 : (q.time % U20 / 32768).toNat = b.phaseOf q.time := by omega
  have e4 : (((T + j : Nat) : Int) - (q.time / U20 + T)).toNat = j - b.offsetOf q.time := by push_cast; omega
  rw [e3, e4]
  by_cases h : b.offsetOf q.time ≤ j ∧ j < b.offsetOf q.time + 32
  · rw [if_pos h, if_pos (by push_cast; omega)]
  · rw [if_neg h, if_neg (by push_cast; omega)]

theorem contribs_stepsAt {b : Buf} (hb : b.time = 0) (hk : b.kernel = kernelHarm) (c T j : Nat) : ∀ (P : List Pulse),
    (∀ q ∈ P, 0 ≤ q.time ∧ q.time ≤ 4294967295) →
    b.contribs ((onChan c P).map Pulse.op) j = stepsAt (P.map (Pulse.later (T * U20))) c (T + j) := by
  intro P hP
  unfold stepsAt
  rw [onChan_later, List.map_map]
  have hP' : ∀ q ∈ onChan c P, 0 ≤ q.time ∧ q.time ≤ 4294967295 := fun q hq => hP q (onChan_mem hq)
  generalize onChan c P = l at hP'
  induction l with
  | nil => rfl
  | cons q l ih =>
    rw [List.map_cons, List.map_cons, List.sum_cons, ← ih fun r hr => hP' r (List.mem_cons_of_mem _ hr)]
    obtain ⟨h0, h1⟩ := hP' q (List.mem_cons_self ..)
    show b.contrib q.op j + _ = _
    rw [contrib_stepAt hb hk h0 h1 T j]
    rfl

/-- Rendering adds steps. -/
theorem Mixed.eff {T : Nat} {P P1 : List Pulse} {chans : List Buf} {Ts : List Int} (h : Mixed T P chans)
    (hb : ∀ b ∈ chans, b.time = 0) (hP : ∀ q ∈ P1, 0 ≤ q.time ∧ q.time ≤ 4294967295) :
    Mixed T (P ++ P1.map (Pulse.later (T * U20))) (chans.mapIdx fun i b => b.eff (onChan i P1) Ts) := by
  intro i hi
  rw [List.length_mapIdx] at hi
  simp only [List.getElem_mapIdx]
  obtain ⟨h1, h2, h3⟩ := h i hi
  refine ⟨h1, ?_, ?_⟩
  · show chans[i].accum = _
    rw [h2, levelAt_accN, levelAt_accN]
    refine accN_congr T fun n hn => ?_
    unfold mixedAt
    rw [stepsAt_append, stepsAt_before (fun q hq => (hP q hq).1) hn, Int.add_zero]
  · intro j
    show wrapI32 (chans[i].frames j + chans[i].contribs ((onChan i P1).map Pulse.op) j) = _
    rw [h3 j, contribs_stepsAt (hb _ (List.getElem_mem hi)) h1 i T j P1 hP]
    unfold mixedAt
    rw [stepsAt_append, wrapI32_add_l]

/-- Frames are taken out. -/
theorem Mixed.theta {T : Nat} {P : List Pulse} {chans : List Buf} (h : Mixed T P chans) (k : Nat) :
    Mixed (T + k) P (chans.map (Buf.theta k)) := by
  intro i hi
  rw [List.length_map] at hi
  simp only [List.getElem_map]
  obtain ⟨h1, h2, h3⟩ := h i hi
  have hf : chans[i].frames = fun j => mixedAt P i (j + T) := by
    funext j; rw [h3 j, Nat.add_comm]
  refine ⟨h1, ?_, ?_⟩
  · show accN chans[i].frames k chans[i].accum = _
    rw [hf, h2, levelAt_accN, levelAt_accN, accN_shift]
  · intro j
    show chans[i].frames (j + k) = _
    rw [h3, show T + k + j = T + (j + k) by omega]

theorem soundOf_add (N T k : Nat) (P : List Pulse) : soundOf N (T + k) P = soundOf N T P ++
    (List.range k).flatMap fun j => (List.range N).map fun c => outAmp (levelAt (mixedAt P c) (T + j + 1)) := by
  unfold soundOf
  rw [List.range_add, List.flatMap_append]
  congr 1
  rw [List.flatMap_map]
  rfl

/-- What is read are the frames. -/
theorem Mixed.samples {N T k : Nat} {P : List Pulse} {chans : List Buf} (h : Mixed T P chans) (hN : chans.length = N) :
    soundOf N (T + k) P = soundOf N T P ++ samplesOf k chans := by
  rw [soundOf_add]
  congr 1
  unfold samplesOf
  rw [List.flatMap_def, List.flatMap_def]
  congr 1
  refine List.map_congr_left fun j _ => ?_
  refine List.ext_getElem (by simp [hN]) fun i g1 g2 => ?_
  simp only [List.getElem_map, List.getElem_range]
  have hi : i < chans.length := by simpa using g2
  obtain ⟨-, h2, h3⟩ := h i hi
  have hf : chans[i].frames = fun j => mixedAt P i (j + T) := by
    funext j; rw [h3 j, Nat.add_comm]
  rw [hf, h2, levelAt_accN, levelAt_accN, accN_shift, Nat.add_assoc]

/-- Later steps do not change what was heard before. -/
theorem soundOf_later {N T : Nat} {P P1 : List Pulse} (hP : ∀ q ∈ P1, 0 ≤ q.time) :
    soundOf N T (P ++ P1.map (Pulse.later (T * U20))) = soundOf N T P := by
  unfold soundOf
  rw [List.flatMap_def, List.flatMap_def]
  congr 1
  refine List.map_congr_left fun n hn => List.map_congr_left fun c _ => ?_
  have hn := List.mem_range.1 hn
  rw [levelAt_accN, levelAt_accN]
  congr 1
  refine accN_congr (n + 1) fun m hm => ?_
  rw [stepsAt_append, stepsAt_before hP (by omega), Int.add_zero]

theorem Mixed.init (N : Nat) : Mixed 0 [] (List.replicate N Buf.init) := by
  intro i hi
  rw [List.getElem_replicate]
  exact ⟨rfl, rfl, fun j => rfl⟩

/-! What is written at places is determined by the writes. -/

theorem placed_mem {v : Int × Int} : ∀ (s : List Int) {base : Int}, v ∈ placed base s → base ≤ v.1
  | [], _, h => by cases h
  | a :: s, base, h => by
    unfold placed at h
    rcases List.mem_cons.1 h with rfl | h
    · exact Int.le_refl _
    · have := placed_mem s h; omega

theorem placed_inj : ∀ (s s' : List Int) {base : Int}, (placed base s).Perm (placed base s') → s = s'
  | [], [], _, _ => rfl
  | [], a :: s', _, h => absurd h.length_eq (by simp [placed])
  | a :: s, [], _, h => absurd h.length_eq (by simp [placed])
  | a :: s, a' :: s', base, h => by
    unfold placed at h
    have hm : (base, a) ∈ (base, a') :: placed (base + 1) s' := h.subset (List.mem_cons_self ..)
    have e : a = a' := by
      rcases List.mem_cons.1 hm with e | e
      · exact congrArg Prod.snd e
      · have := placed_mem s' e
        dsimp only at this
        omega
    subst e
    rw [placed_inj s s' (List.perm_cons _ |>.1 h)]

end BK

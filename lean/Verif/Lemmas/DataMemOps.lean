import Verif.Lemmas.DataMem
import Verif.Props.DataState
/-! Memory of data objects: the calls. -/
namespace BK

theorem DWorld.Base.free {w : DWorld} {A : Lists} (hb : w.Base A) {d : Nat} (ha : (w.datas d).alive = true)
    (hc : (w.datas d).copy = true) : ∃ id, (w.datas d).frames = some (.lib id) ∧
      w.free (w.datas d).frames = .ok { w with heap := upd w.heap id none } := by
  obtain ⟨id, h⟩ := hb.copy d ha hc
  obtain ⟨size, h1, _⟩ := h ▸ hb.data d ha
  refine ⟨id, h, ?_⟩
  rw [h]
  unfold DWorld.free
  dsimp only
  rw [h1]

/-- Memory is allocated at a number not used yet, everything but the memory of `d` is kept. -/
def Grown (w : DWorld) (d size id : Nat) (w1 : DWorld) : Prop :=
  ∃ h1, w1 = { w with heap := h1, nextId := w.nextId + 1 } ∧ id = w.nextId ∧ h1 id = some size ∧
    (∀ i, w.nextId + 1 ≤ i → h1 i = none) ∧
    ∀ n p, PtrOk w.heap n p → (∀ i, p = some (.lib i) → (w.datas d).frames ≠ some (.lib i)) → PtrOk h1 n p

theorem DWorld.Base.grow {w : DWorld} {A : Lists} (hb : w.Base A) {d : Nat} (ha : (w.datas d).alive = true)
    (size : Nat) : ∃ id w1, w.grow d size true = .ok (some (id, w1)) ∧ Grown w d size id w1 := by
  unfold DWorld.grow
  rw [if_pos rfl]
  by_cases hc : (w.datas d).copy = true
  · obtain ⟨i, h, e⟩ := hb.free ha hc
    rw [if_pos hc, e, ok_bind]
    refine ⟨_, _, rfl, _, rfl, rfl, upd_self _ _ _, ?_, ?_⟩
    · intro j hj
      rw [upd_ne _ _ (by dsimp only; omega)]
      dsimp only
      by_cases hji : j = i
      · subst hji; exact upd_self _ _ _
      · rw [upd_ne _ _ hji]; exact hb.fresh j (by omega)
    · intro n p hp hn
      have h1 : p ≠ some (.lib i) := fun e => hn i e h
      exact (hp.upd none h1).upd _ (hb.ne_next hp)
  · rw [if_neg hc]
    refine ⟨_, _, rfl, _, rfl, rfl, upd_self _ _ _, ?_, fun n p hp _ => hp.upd _ (hb.ne_next hp)⟩
    intro j hj
    rw [upd_ne _ _ (by omega)]
    exact hb.fresh j (by omega)

/-- The world after new memory has been set. -/
theorem DWorld.Fine.newMem {w : DWorld} {A : Lists} (hb : w.Fine A) {d : Nat} (ha : (w.datas d).alive = true)
    {n c id : Nat} {w1 : DWorld} (hg : Grown w d (n * c) id w1) (hch : 1 ≤ c) (D : DData) (hD : D.alive = true)
    (hfr : D.frames = some (.lib id)) (hn : D.numFrames = n) (hc : D.numChannels = c) :
    (w1.setDat d D).Base A ∧
    ∀ e u, e ≠ d → u ∈ A e → (w.units u).kind ≠ .builtin → (w1.setDat d D).UserOk e u := by
  obtain ⟨h1, e1, e2, e3, e4, e5⟩ := hg
  subst e1
  refine hb.replace d D h1 (w.nextId + 1) e4 ha hD (fun _ => ⟨id, hfr⟩) ?_ (fun _ => by omega) ?_ e5
  · rw [hfr, hn, hc]; exact ⟨_, e3, Nat.le_refl _⟩
  · intro i hi
    rw [hfr] at hi
    cases hi
    exact .inl e2

theorem DWorld.Fine.setFrames {w : DWorld} {A : Lists} (hb : w.Fine A) (fuel d : Nat) (src : Ptr) (n c : Nat)
    (copy mem : Bool) (hl : (DataOp.setFrames d src n c copy mem).Legal w) (hf : (A d).length + 1 ≤ fuel) :
    ∃ w', w.setFrames fuel d src n c copy mem = .ok w' ∧ w'.Fine A := by
  obtain ⟨ha, ⟨size, hsrc, hsize⟩, hcopy, hch⟩ := hl
  subst hsrc
  unfold DWorld.setFrames
  by_cases hn : n < 2
  · rw [if_pos hn]; exact ⟨w, rfl, hb⟩
  rw [if_neg hn]
  by_cases hc : c < 1 ∨ c > 8
  · rw [if_pos hc]; exact ⟨w, rfl, hb⟩
  rw [if_neg hc]
  have hch' : ∀ u ∈ A d, (w.units u).kind ≠ .builtin ∧
      ((w.units u).kind = .sample → c = 1 ∨ (w.units u).ctx = some c) :=
    fun u hu => hch u ((hb.links.owner u d).2 hu)
  unfold DWorld.newFrames
  cases copy with
  | true =>
    rw [if_pos rfl]
    cases mem with
    | false => exact ⟨w, rfl, hb⟩
    | true =>
      obtain ⟨id, w1, e, hg⟩ := hb.grow ha (n * c)
      rw [e, ok_bind]
      dsimp only
      have hacc : w1.access (n * c) (some (.user size)) = .ok () := if_pos hsize
      rw [hacc]
      have hr := hb.newMem ha hg (by omega)
        { w1.datas d with copy := true, frames := some (.lib id), numFrames := n, numChannels := c }
        (by obtain ⟨h1, e1, -⟩ := hg; subst e1; exact ha) rfl rfl rfl
      have hu : w1.units = w.units := by obtain ⟨h1, e1, -⟩ := hg; subst e1; rfl
      have hds : ∀ D : DData, (w1.setDat d D).datas d = D := fun D => upd_self _ _ _
      have heq : (w1.setDat d { w1.datas d with copy := true }).setDat d
          { (w1.setDat d { w1.datas d with copy := true }).datas d with
            frames := some (.lib id), numFrames := n, numChannels := c } =
          w1.setDat d { w1.datas d with copy := true, frames := some (.lib id), numFrames := n, numChannels := c } := by
        rw [hds]
        unfold DWorld.setDat
        dsimp only
        rw [upd_upd]
      simp only [pure_eq_ok, ok_bind]
      rw [heq]
      refine hr.1.resetChange fuel d hf ?_ ?_ ?_ (by
        show ∀ c u, c ≠ d → u ∈ A c → (w1.units u).kind ≠ _ → _
        rw [hu]; exact hr.2)
      · rw [hds]; obtain ⟨h1, e1, -⟩ := hg; subst e1; exact ha
      · rw [hds]; dsimp only; omega
      · rw [hds]
        show ∀ u ∈ A d, (w1.units u).kind ≠ .builtin ∧
          ((w1.units u).kind = .sample → c = 1 ∨ (w1.units u).ctx = some c)
        rw [hu]
        exact hch'
  | false =>
    rw [if_neg (by simp), if_neg (by rw [hcopy rfl]; simp)]
    have hr := hb.replace d { w.datas d with frames := some (.user size), numFrames := n, numChannels := c } w.heap
      w.nextId hb.fresh ha ha (fun h => by rw [hcopy rfl] at h; cases h) hsize (fun _ => by dsimp only; omega)
      (fun id h => by cases h) (fun _ _ h _ => h)
    have hds : ∀ D : DData, (w.setDat d D).datas d = D := fun D => upd_self _ _ _
    refine DWorld.Base.resetChange (w := w.setDat d
      { w.datas d with frames := some (.user size), numFrames := n, numChannels := c }) hr.1 fuel d hf ?_ ?_ ?_ hr.2
    · rw [hds]; exact ha
    · rw [hds]; dsimp only; omega
    · rw [hds]; exact hch'

theorem DWorld.Fine.setRaw {w : DWorld} {A : Lists} (hb : w.Fine A) (d n c : Nat) (mem : Bool)
    (hl : (DataOp.setRaw d n c mem).Legal w) : ∃ w', w.setRaw d n c mem = .ok w' ∧ w'.Fine A := by
  obtain ⟨ha, hu⟩ := hl
  unfold DWorld.setRaw
  by_cases hc : c < 1 ∨ c > 8
  · rw [if_pos hc]; exact ⟨w, rfl, hb⟩
  rw [if_neg hc]
  cases mem with
  | false => exact ⟨w, rfl, hb⟩
  | true =>
    obtain ⟨id, w1, e, hg⟩ := hb.grow ha (n * c)
    rw [e, ok_bind]
    have hr := hb.newMem ha hg (by omega)
      { w1.datas d with frames := some (.lib id), numFrames := n, numChannels := c }
      (by obtain ⟨h1, e1, -⟩ := hg; subst e1; exact ha) rfl rfl rfl
    have hun : w1.units = w.units := by obtain ⟨h1, e1, -⟩ := hg; subst e1; rfl
    refine ⟨_, rfl, hr.1, fun c' u he hk => hr.2 c' u ?_ he (by rw [← hun]; exact hk)⟩
    intro h
    subst h
    exact hu u ((hb.links.owner u c').2 he)

theorem DWorld.Fine.load {w : DWorld} {A : Lists} (hb : w.Fine A) (d n c : Nat) (mem : Bool)
    (hl : (DataOp.load d n c mem).Legal w) : (w.load d n c mem).Fine A := by
  obtain ⟨ha, hc, hu⟩ := hl
  unfold DWorld.load
  cases mem with
  | false => exact hb
  | true =>
    rw [if_pos rfl]
    unfold DWorld.malloc DWorld.setDat
    dsimp only
    have hkeep : ∀ k p, PtrOk w.heap k p → PtrOk (upd w.heap w.nextId (some (n * c))) k p :=
      fun k p h => h.upd _ (hb.ne_next h)
    have hnew : PtrOk (upd w.heap w.nextId (some (n * c))) (n * c) (some (.lib w.nextId)) :=
      ⟨n * c, upd_self _ _ _, Nat.le_refl _⟩
    have hr := hb.replace d { w.datas d with
        copy := true, frames := some (.lib w.nextId), numFrames := n, numChannels := c }
      (upd w.heap w.nextId (some (n * c))) (w.nextId + 1)
      (fun j hj => by rw [upd_ne _ _ (by omega)]; exact hb.fresh j (by omega)) ha ha (fun _ => ⟨_, rfl⟩)
      hnew (fun _ => hc) (fun id h => by cases h; exact .inl rfl) (fun k p h _ => hkeep k p h)
    refine ⟨hr.1, fun e u he hk => ?_⟩
    by_cases hcd : e = d
    · subst hcd
      obtain ⟨u1, u2, u3⟩ := hb.ok e u he hk
      unfold DWorld.UserOk
      dsimp only
      rw [upd_self]
      refine ⟨fun hs => hu u ((hb.links.owner u e).2 he) hs, hkeep _ _ u2, fun e' id h1 h2 h3 => ?_⟩
      by_cases hee : e' = e
      · exact hee
      · rw [upd_ne _ _ hee] at h2 h3
        exact u3 e' id h1 h2 h3
    · exact hr.2 e u hcd he hk

theorem DWorld.Fine.normalize {w : DWorld} {A : Lists} (hb : w.Fine A) (d : Nat) (mem : Bool)
    (ha : (w.datas d).alive = true) : ∃ w', w.normalize d mem = .ok w' ∧ w'.Fine A := by
  unfold DWorld.normalize DWorld.promote
  dsimp only
  by_cases hc : (w.datas d).copy = true
  · rw [if_pos hc, ok_bind]
    dsimp only
    rw [access_ok (hb.data d ha)]
    exact ⟨w, rfl, hb⟩
  · rw [if_neg hc]
    cases mem with
    | false => exact ⟨w, rfl, hb⟩
    | true =>
      rw [if_pos rfl]
      unfold DWorld.malloc
      dsimp only
      generalize hs : (w.datas d).numFrames * (w.datas d).numChannels = size
      have hp := hb.data d ha
      rw [hs] at hp
      have hacc := access_ok (w := { w with
        heap := upd w.heap w.nextId (some size), nextId := w.nextId + 1 }) (hp.upd (some size) (hb.ne_next hp))
      rw [hacc]
      simp only [pure_eq_ok, ok_bind]
      have hkeep : ∀ n p, PtrOk w.heap n p → PtrOk (upd w.heap w.nextId (some size)) n p :=
        fun n p h => h.upd _ (hb.ne_next h)
      have hnew : PtrOk (upd w.heap w.nextId (some size)) size (some (.lib w.nextId)) :=
        ⟨size, upd_self _ _ _, Nat.le_refl _⟩
      have hr := hb.replace d { w.datas d with frames := some (.lib w.nextId), copy := true }
        (upd w.heap w.nextId (some size)) (w.nextId + 1)
        (fun j hj => by rw [upd_ne _ _ (by omega)]; exact hb.fresh j (by omega)) ha ha (fun _ => ⟨_, rfl⟩)
        (by dsimp only; rw [hs]; exact hnew) (hb.chan d ha) (fun id h => by cases h; exact .inl rfl)
        (fun n p h _ => hkeep n p h)
      unfold DWorld.setDat
      dsimp only
      rw [upd_self]
      dsimp only
      rw [hs, access_ok hnew]
      refine ⟨_, rfl, hr.1, fun c u hu hk => ?_⟩
      by_cases hcd : c = d
      · subst hcd
        obtain ⟨u1, u2, u3⟩ := hb.ok c u hu hk
        unfold DWorld.UserOk
        dsimp only
        rw [upd_self]
        refine ⟨u1, hkeep _ _ u2, fun e id h1 h2 h3 => ?_⟩
        by_cases he : e = c
        · exact he
        · rw [upd_ne _ _ he] at h2 h3
          exact u3 e id h1 h2 h3
      · exact hr.2 c u hcd hu hk

theorem DWorld.Fine.convert {w : DWorld} {A : Lists} (hb : w.Fine A) (fuel d : Nat) (mem : Bool)
    (hl : (DataOp.convert d mem).Legal w) (hf : (A d).length + 1 ≤ fuel) :
    ∃ w', w.convert fuel d mem = .ok w' ∧ w'.Fine A := by
  obtain ⟨ha, hn, hch⟩ := hl
  have hch' : ∀ u ∈ A d, (w.units u).kind ≠ .builtin ∧
      ((w.units u).kind = .sample → (w.datas d).numChannels = 1 ∨ (w.units u).ctx = some (w.datas d).numChannels) :=
    fun u hu => hch u ((hb.links.owner u d).2 hu)
  have hp := hb.data d ha
  unfold DWorld.convert DWorld.convertMem
  dsimp only
  by_cases hc : (w.datas d).copy = true
  · rw [if_pos hc]
    dsimp only
    rw [access_ok hp, ok_bind, ok_bind]
    exact hb.toBase.resetChange fuel d hf ha hn hch' (fun c u _ h hk => hb.ok c u h hk)
  · rw [if_neg hc]
    cases mem with
    | false => exact ⟨w, rfl, hb⟩
    | true =>
      rw [if_pos rfl]
      unfold DWorld.malloc
      dsimp only
      rw [access_ok hp, ok_bind]
      generalize hs : (w.datas d).numFrames * (w.datas d).numChannels = size at hp
      have hkeep : ∀ n p, PtrOk w.heap n p → PtrOk (upd w.heap w.nextId (some size)) n p :=
        fun n p h => h.upd _ (hb.ne_next h)
      have hnew : PtrOk (upd w.heap w.nextId (some size)) size (some (.lib w.nextId)) :=
        ⟨size, upd_self _ _ _, Nat.le_refl _⟩
      have hr := hb.replace d { w.datas d with frames := some (.lib w.nextId) }
        (upd w.heap w.nextId (some size)) (w.nextId + 1)
        (fun j hj => by rw [upd_ne _ _ (by omega)]; exact hb.fresh j (by omega)) ha ha (fun _ => ⟨_, rfl⟩)
        (by dsimp only; rw [hs]; exact hnew) (hb.chan d ha) (fun id h => by cases h; exact .inl rfl)
        (fun n p h _ => hkeep n p h)
      unfold DWorld.setDat
      dsimp only
      rw [upd_self]
      dsimp only
      have hacc := access_ok (w := { w with
        heap := upd w.heap w.nextId (some size), nextId := w.nextId + 1, datas := upd w.datas d { w.datas d with frames := some (.lib w.nextId) } }) hnew
      rw [hacc, ok_bind]
      have us : upd w.datas d { w.datas d with frames := some (Ptr.lib w.nextId) } d = { w.datas d with frames := some (.lib w.nextId) } :=
        upd_self _ _ _
      refine hr.1.resetChange fuel d hf ?_ ?_ ?_ hr.2
      · dsimp only; rw [us]; exact ha
      · dsimp only; rw [us]; exact hn
      · dsimp only; rw [us]; exact hch'

theorem DWorld.Fine.dispose {w : DWorld} {A : Lists} (hb : w.Fine A) (fuel d : Nat)
    (ha : (w.datas d).alive = true) (hf : (A d).length + 1 ≤ fuel) :
    ∃ w', w.disposeData fuel d = .ok w' ∧ w'.Fine (A.drop d (fun _ => true)) := by
  obtain ⟨w1, e, hb1, hd, hh⟩ := hb.toBase.resetGone fuel d hf (fun c u _ h hk => hb.ok c u h hk)
  unfold DWorld.disposeData
  rw [e, ok_bind]
  have hempty : ∀ c u, u ∈ A.drop d (fun _ => true) c → c ≠ d := fun c u h hc => by
    rw [Lists.drop_true, if_pos hc] at h; cases h
  have fin : ∀ (h1 : Nat → Option Nat), (∀ id, w1.nextId ≤ id → h1 id = none) →
      (∀ n p, PtrOk w1.heap n p → (∀ id, p = some (.lib id) → (w1.datas d).frames ≠ some (.lib id)) → PtrOk h1 n p) →
      (({ w1 with heap := h1 } : DWorld).setDat d {}).Fine (A.drop d (fun _ => true)) := by
    intro h1 hf1 hk
    have ha1 : (w1.datas d).alive = true := by rw [hd]; exact ha
    have un : ∀ e, e ≠ d → upd w1.datas d {} e = w1.datas e := fun e h => upd_ne _ _ h
    have us : upd w1.datas d {} d = {} := upd_self _ _ _
    have al : ∀ e, (upd w1.datas d {} e).alive = true → e ≠ d := fun e h hc => by rw [hc, us] at h; cases h
    refine ⟨⟨hb1.links, hf1, ?_, ?_, ?_, ?_, ?_, hb1.kinds⟩, ?_⟩
    · intro c hc
      by_cases h : c = d
      · rw [Lists.drop_true, if_pos h]
      · refine hb1.dead c ?_
        have hc : (upd w1.datas d {} c).alive = false := hc
        rwa [un c h] at hc
    · intro c hc
      have h := al c hc
      have hc : (upd w1.datas d {} c).alive = true := hc
      show (upd w1.datas d {} c).copy = true → ∃ id, (upd w1.datas d {} c).frames = _
      rw [un c h] at hc ⊢
      exact hb1.copy c hc
    · intro c hc
      have h := al c hc
      have hc : (upd w1.datas d {} c).alive = true := hc
      show PtrOk h1 ((upd w1.datas d {} c).numFrames * (upd w1.datas d {} c).numChannels) (upd w1.datas d {} c).frames
      rw [un c h] at hc ⊢
      exact hk _ _ (hb1.data c hc) (fun id h2 h3 => h (hb1.own c d id hc ha1 h2 h3))
    · intro c hc
      have h := al c hc
      have hc : (upd w1.datas d {} c).alive = true := hc
      show 2 ≤ (upd w1.datas d {} c).numFrames → 1 ≤ (upd w1.datas d {} c).numChannels
      rw [un c h] at hc ⊢
      exact hb1.chan c hc
    · intro c e id h1 h2 h3 h4
      have hc := al c h1
      have he := al e h2
      have h1 : (upd w1.datas d {} c).alive = true := h1
      have h2 : (upd w1.datas d {} e).alive = true := h2
      have h3 : (upd w1.datas d {} c).frames = some (.lib id) := h3
      have h4 : (upd w1.datas d {} e).frames = some (.lib id) := h4
      rw [un c hc] at h1 h3
      rw [un e he] at h2 h4
      exact hb1.own c e id h1 h2 h3 h4
    · intro c u hu hku
      have hcd := hempty c u hu
      obtain ⟨u1, u2, u3⟩ := hb1.ok c u hu hku
      refine ⟨?_, hk _ _ u2 (fun id h2 h3 => hcd (u3 d id h2 ha1 h3).symm), ?_⟩
      · show _ → (w1.units u).chans = (upd w1.datas d {} c).numChannels
        rw [un c hcd]; exact u1
      · intro e id h2 h3 h4
        have he := al e h3
        have h3 : (upd w1.datas d {} e).alive = true := h3
        have h4 : (upd w1.datas d {} e).frames = some (.lib id) := h4
        rw [un e he] at h3 h4
        exact u3 e id h2 h3 h4
  by_cases hc : (w1.datas d).copy = true
  · obtain ⟨id, h1, h2⟩ := hb1.free (by rw [hd]; exact ha) hc
    rw [if_pos hc, h2, ok_bind]
    refine ⟨_, rfl, fin _ ?_ ?_⟩
    · intro j hj
      by_cases hji : j = id
      · subst hji; exact upd_self _ _ _
      · rw [upd_ne _ _ hji]; exact hb1.fresh j hj
    · intro n p hp hn
      exact hp.upd none (fun e => hn id e h1)
  · rw [if_neg hc]
    simp only [pure_eq_ok, ok_bind]
    exact ⟨_, rfl, fin w1.heap hb1.fresh (fun n p h _ => h)⟩

theorem Lists.mem_bind {A : Lists} {s u : Nat} {d : Option Nat} {c : Nat} :
    u ∈ A.bind s d c ↔ (u ≠ s ∧ u ∈ A c) ∨ (u = s ∧ d = some c) := by
  unfold Lists.bind
  by_cases h : d = some c
  · rw [if_pos h]; simp [h, and_comm]
  · rw [if_neg h]; simp [h, and_comm]

/-- Unit `u` is bound to something else. -/
theorem DWorld.Fine.rebind {w : DWorld} {A : Lists} (hb : w.Fine A) (u : Nat) (d : Option Nat) (y : DUnit)
    (l : Links) (hl : l.SRepr (A.bind u d)) (hn : d = none → y.kind = .builtin)
    (hd : ∀ c, d = some c → (w.datas c).alive = true ∧ y.ctx ≠ none ∧
      ({ w.setUnit u y with links := l } : DWorld).UserOk c u) :
    ({ w.setUnit u y with links := l } : DWorld).Fine (A.bind u d) := by
  have un : ∀ x, x ≠ u → upd w.units u y x = w.units x := fun x h => upd_ne _ _ h
  have us : upd w.units u y u = y := upd_self _ _ _
  refine ⟨⟨hl, hb.fresh, ?_, hb.copy, hb.data, hb.chan, hb.own, ?_⟩, ?_⟩
  · intro c hc
    have hc : (w.datas c).alive = false := hc
    have h1 := hb.dead c hc
    have h2 : d ≠ some c := fun h => by rw [(hd c h).1] at hc; cases hc
    unfold Lists.bind
    rw [if_neg h2, h1]
    rfl
  · intro x hx
    have hx : (upd w.units u y x).kind ≠ .builtin := hx
    show _ ∧ (upd w.units u y x).ctx ≠ none
    by_cases h : x = u
    · rw [h, us] at hx
      rw [h, us]
      cases d with
      | none => exact absurd (hn rfl) hx
      | some c => exact ⟨⟨c, Lists.mem_bind.2 (.inr ⟨rfl, rfl⟩)⟩, (hd c rfl).2.1⟩
    · rw [un x h] at hx ⊢
      obtain ⟨⟨c, hc⟩, hx⟩ := hb.kinds x hx
      exact ⟨⟨c, Lists.mem_bind.2 (.inl ⟨h, hc⟩)⟩, hx⟩
  · intro c x hx hk
    rcases Lists.mem_bind.1 hx with ⟨h, hc⟩ | ⟨h, hc⟩
    · have hk : (upd w.units u y x).kind ≠ .builtin := hk
      rw [un x h] at hk
      have := hb.ok c x hc hk
      unfold DWorld.UserOk at this ⊢
      show ((upd w.units u y x).kind = _ → (upd w.units u y x).chans = _) ∧
        PtrOk w.heap (upd w.units u y x).need (upd w.units u y x).frames ∧
        ∀ e id, (upd w.units u y x).frames = _ → _
      rw [un x h]
      exact this
    · rw [h]; exact (hd c hc).2.2

/-- A unit that plays no data changes, and still plays none. -/
theorem DWorld.Fine.setUnit {w : DWorld} {A : Lists} (hb : w.Fine A) (u : Nat) (y : DUnit)
    (hy : y.kind = .builtin) : (w.setUnit u y).Fine A := by
  have un : ∀ x, x ≠ u → upd w.units u y x = w.units x := fun x h => upd_ne _ _ h
  have us : upd w.units u y u = y := upd_self _ _ _
  refine ⟨⟨hb.links, hb.fresh, hb.dead, hb.copy, hb.data, hb.chan, hb.own, ?_⟩, ?_⟩
  · intro x hx
    have hx : (upd w.units u y x).kind ≠ .builtin := hx
    show _ ∧ (upd w.units u y x).ctx ≠ none
    by_cases h : x = u
    · rw [h, us] at hx; exact absurd hy hx
    · rw [un x h] at hx ⊢; exact hb.kinds x hx
  · intro c x hx hk
    have hk : (upd w.units u y x).kind ≠ .builtin := hk
    have h : x ≠ u := fun h => by rw [h, us] at hk; exact hk hy
    rw [un x h] at hk
    have := hb.ok c x hx hk
    unfold DWorld.UserOk at this ⊢
    show ((upd w.units u y x).kind = _ → (upd w.units u y x).chans = _) ∧
      PtrOk w.heap (upd w.units u y x).need (upd w.units u y x).frames ∧
      ∀ e id, (upd w.units u y x).frames = _ → _
    rw [un x h]
    exact this

/-- The unit is bound to nothing. -/
theorem DWorld.Fine.unbind {w : DWorld} {A : Lists} (hb : w.Fine A) (fuel u : Nat) (hf : ∀ d, (A d).length ≤ fuel)
    (y : DUnit) (hy : y.kind = .builtin) : ∃ l, w.links.dataBind fuel u none = .ok l ∧
      ({ w.setUnit u y with links := l } : DWorld).Fine (A.bind u none) := by
  obtain ⟨l, e, r⟩ := hb.links.bind fuel u none hf
  exact ⟨l, e, hb.rebind u none y l r (fun _ => hy) (fun c h => by cases h)⟩

theorem DWorld.Fine.useData {w : DWorld} {A : Lists} (hb : w.Fine A) (fuel u : Nat) (type : UKind) (d : Nat)
    (hl : (DataOp.use u type (some d)).Legal w) (hf : ∀ d, (A d).length ≤ fuel) :
    ∃ w' A', w.setData fuel u type (some d) = .ok w' ∧ w'.Fine A' ∧ (A' = A ∨ A' = A.bind u (some d)) := by
  obtain ⟨ht, ha⟩ := hl
  unfold DWorld.setData
  dsimp only
  rw [Option.map_some]
  by_cases hr : ((w.units u).trySet (some (w.datas d)) type false).1 = true
  · obtain ⟨c, hc, hn, hs⟩ := trySet_true hr
    have hp := trySet_ok (x := w.units u) (D := w.datas d) hc ht hn (hb.chan d ha hn) hs
    obtain ⟨l, e, r⟩ := hb.links.bind fuel u (some d) hf
    generalize (w.units u).trySet (some (w.datas d)) type false = r' at hp
    obtain ⟨k1, k2, k3, k4, k5, k6⟩ := hp
    rw [if_pos k1, e, ok_bind]
    refine ⟨_, _, rfl, hb.rebind u (some d) r'.2 l r (fun h => by cases h) ?_, .inr rfl⟩
    intro c' hc'
    cases hc'
    refine ⟨ha, by rw [k2, hc]; simp, ?_⟩
    unfold DWorld.UserOk
    show ((upd w.units u r'.2 u).kind = _ → (upd w.units u r'.2 u).chans = _) ∧
      PtrOk w.heap (upd w.units u r'.2 u).need (upd w.units u r'.2 u).frames ∧
      ∀ e id, (upd w.units u r'.2 u).frames = _ → (w.datas e).alive = true → (w.datas e).frames = _ → e = d
    rw [upd_self, k3, k4]
    exact ⟨k6, (hb.data d ha).le k5, fun e id h1 h2 h3 => hb.own e d id h2 ha h3 h1⟩
  · rw [if_neg hr]
    exact ⟨_, A, rfl, hb.setUnit u _ rfl, .inl rfl⟩

theorem DWorld.Fine.useNone {w : DWorld} {A : Lists} (hb : w.Fine A) (fuel u : Nat) (type : UKind)
    (hl : (DataOp.use u type none).Legal w) (hf : ∀ d, (A d).length ≤ fuel) :
    ∃ w' A', w.setData fuel u type none = .ok w' ∧ w'.Fine A' ∧ (A' = A ∨ A' = A.bind u none) := by
  obtain ⟨ht, hu⟩ := hl
  have key : ((w.units u).trySet none type false).1 = true →
      ((w.units u).trySet none type false).2.kind = .builtin := by
    unfold DUnit.trySet
    cases (w.units u).ctx with
    | none => intro h; cases h
    | some c =>
      cases type with
      | builtin => intro h; cases h
      | custom =>
        dsimp only
        rcases hu with hu | hu
        · rw [if_neg (by rw [hu]; simp)]; intro _; exact hu
        · rw [if_pos hu]; intro _; rfl
      | sample =>
        dsimp only
        rcases hu with hu | hu
        · rw [if_neg (by rw [hu]; simp)]; intro _; exact hu
        · rw [if_pos hu]; intro _; rfl
  unfold DWorld.setData
  dsimp only
  rw [Option.map_none]
  by_cases h1 : ((w.units u).trySet none type false).1 = true
  · obtain ⟨l, e, r⟩ := hb.unbind fuel u hf _ (key h1)
    rw [if_pos h1, e, ok_bind]
    exact ⟨_, _, rfl, r, .inr rfl⟩
  · rw [if_neg h1]
    exact ⟨_, A, rfl, hb.setUnit u _ rfl, .inl rfl⟩

theorem DWorld.Fine.range {w : DWorld} {A : Lists} (hb : w.Fine A) (u : Nat) : (w.range u).Fine A := by
  unfold DWorld.range
  dsimp only
  by_cases hk : (w.units u).kind = .sample
  · rw [if_pos hk]
    cases ho : w.links.owner u with
    | none => exact hb
    | some d =>
      have hu := (hb.links.owner u d).1 ho
      have ha : (w.datas d).alive = true := by
        cases h : (w.datas d).alive with
        | true => rfl
        | false => rw [hb.dead d h] at hu; cases hu
      dsimp only
      generalize hy : ({ w.units u with frames := (w.datas d).frames
                                        need := (w.datas d).numFrames * (w.units u).chans } : DUnit) = y
      have un : ∀ x, x ≠ u → upd w.units u y x = w.units x := fun x h => upd_ne _ _ h
      have us : upd w.units u y u = y := upd_self _ _ _
      have hkb : (w.units u).kind ≠ .builtin := by rw [hk]; simp
      refine ⟨⟨hb.links, hb.fresh, hb.dead, hb.copy, hb.data, hb.chan, hb.own, ?_⟩, ?_⟩
      · intro x hx
        have hx : (upd w.units u y x).kind ≠ .builtin := hx
        show _ ∧ (upd w.units u y x).ctx ≠ none
        by_cases h : x = u
        · rw [h, us, ← hy]; exact hb.kinds u hkb
        · rw [un x h] at hx ⊢; exact hb.kinds x hx
      · intro c x hx hkx
        have hkx : (upd w.units u y x).kind ≠ .builtin := hkx
        have hkx : (w.units x).kind ≠ .builtin := by
          by_cases h : x = u
          · rw [h]; exact hkb
          · rwa [un x h] at hkx
        have := hb.ok c x hx hkx
        unfold DWorld.UserOk at this ⊢
        show ((upd w.units u y x).kind = _ → (upd w.units u y x).chans = _) ∧
          PtrOk w.heap (upd w.units u y x).need (upd w.units u y x).frames ∧
          ∀ e id, (upd w.units u y x).frames = _ → _
        by_cases h : x = u
        · subst h
          have hcd : c = d := Classical.byContradiction (fun h => hb.links.other hu h hx)
          subst hcd
          rw [us, ← hy]
          dsimp only
          rw [this.1 hk]
          exact ⟨fun _ => rfl, hb.data c ha, fun e id h1 h2 h3 => hb.own e c id h2 ha h3 h1⟩
        · rw [un x h]; exact this
  · rw [if_neg hk]; exact hb

theorem DWorld.Fine.play {w : DWorld} {A : Lists} (hb : w.Fine A) (u : Nat) : w.play u = .ok w := by
  unfold DWorld.play
  dsimp only
  by_cases hk : (w.units u).ctx ≠ none ∧ (w.units u).kind ≠ .builtin
  · rw [if_pos hk]
    obtain ⟨⟨d, hd⟩, -⟩ := hb.kinds u hk.2
    rw [access_ok (hb.ok d u hd hk.2).2.1]
    rfl
  · rw [if_neg hk]
    rfl

theorem DWorld.Fine.initData {w : DWorld} {A : Lists} (hb : w.Fine A) (d : Nat)
    (hd : (w.datas d).alive = false) : (w.setDat d { alive := true }).Fine A := by
  have un : ∀ e, e ≠ d → upd w.datas d { alive := true } e = w.datas e := fun e h => upd_ne _ _ h
  have us : upd w.datas d { alive := true } d = { alive := true } := upd_self _ _ _
  have emp := hb.dead d hd
  refine ⟨⟨hb.links, hb.fresh, ?_, ?_, ?_, ?_, ?_, hb.kinds⟩, ?_⟩
  · intro c hc
    by_cases h : c = d
    · rw [h]; exact emp
    · have hc : (upd w.datas d { alive := true } c).alive = false := hc
      rw [un c h] at hc
      exact hb.dead c hc
  · intro c
    show (upd w.datas d _ c).alive = true → (upd w.datas d _ c).copy = true → ∃ id, (upd w.datas d _ c).frames = _
    by_cases h : c = d
    · rw [h, us]; intro _ h; cases h
    · rw [un c h]; exact hb.copy c
  · intro c
    show (upd w.datas d _ c).alive = true →
      PtrOk w.heap ((upd w.datas d _ c).numFrames * (upd w.datas d _ c).numChannels) (upd w.datas d _ c).frames
    by_cases h : c = d
    · rw [h, us]; intro _; exact rfl
    · rw [un c h]; exact hb.data c
  · intro c
    show (upd w.datas d _ c).alive = true → 2 ≤ (upd w.datas d _ c).numFrames → 1 ≤ (upd w.datas d _ c).numChannels
    by_cases h : c = d
    · rw [h, us]; intro _ h; dsimp only at h; omega
    · rw [un c h]; exact hb.chan c
  · intro c e id
    show (upd w.datas d _ c).alive = true → (upd w.datas d _ e).alive = true →
      (upd w.datas d _ c).frames = _ → (upd w.datas d _ e).frames = _ → c = e
    by_cases h : c = d
    · rw [h, us]; intro _ _ h; cases h
    · rw [un c h]
      by_cases h' : e = d
      · rw [h', us]; intro _ _ _ h; cases h
      · rw [un e h']; exact hb.own c e id
  · intro c u hu hk
    have hcd : c ≠ d := fun h => by rw [h, emp] at hu; cases hu
    obtain ⟨u1, u2, u3⟩ := hb.ok c u hu hk
    refine ⟨?_, u2, ?_⟩
    · show _ → (w.units u).chans = (upd w.datas d _ c).numChannels
      rw [un c hcd]; exact u1
    · intro e id h1
      show (upd w.datas d _ e).alive = true → (upd w.datas d _ e).frames = _ → e = c
      by_cases h : e = d
      · rw [h, us]; intro _ h; cases h
      · rw [un e h]; exact u3 e id h1

theorem Lists.bind_length (A : Lists) (u : Nat) (d : Option Nat) (k : Nat) (h : ∀ c, (A c).length ≤ k) (c : Nat) :
    (A.bind u d c).length ≤ k + 1 := A.bindStep_length (.bind u d) k h c

theorem DWorld.Fine.exec {w : DWorld} {A : Lists} (hb : w.Fine A) (fuel k : Nat) (op : DataOp) (hl : op.Legal w)
    (hk : ∀ d, (A d).length ≤ k) (hf : k + 1 ≤ fuel) :
    ∃ w' A', w.exec fuel op = .ok w' ∧ w'.Fine A' ∧ ∀ d, (A' d).length ≤ k + 1 := by
  have hA : ∀ d, (A d).length ≤ k + 1 := fun d => Nat.le_succ_of_le (hk d)
  have hfd : ∀ d, (A d).length + 1 ≤ fuel := fun d => by have := hk d; omega
  have hfd' : ∀ d, (A d).length ≤ fuel := fun d => by have := hk d; omega
  have hdrop : ∀ d c, (A.drop d (fun _ => true) c).length ≤ k + 1 := fun d c => by
    rw [Lists.drop_true]
    split
    · exact Nat.zero_le _
    · exact hA c
  cases op with
  | init d => exact ⟨_, A, rfl, hb.initData d hl, hA⟩
  | setFrames d src n c copy mem =>
    obtain ⟨w', e, h⟩ := hb.setFrames fuel d src n c copy mem hl (hfd d)
    exact ⟨w', A, e, h, hA⟩
  | setRaw d n c mem =>
    obtain ⟨w', e, h⟩ := hb.setRaw d n c mem hl
    exact ⟨w', A, e, h, hA⟩
  | load d n c mem => exact ⟨_, A, rfl, hb.load d n c mem hl, hA⟩
  | normalize d mem =>
    obtain ⟨w', e, h⟩ := hb.normalize d mem hl
    exact ⟨w', A, e, h, hA⟩
  | convert d mem =>
    obtain ⟨w', e, h⟩ := hb.convert fuel d mem hl (hfd d)
    exact ⟨w', A, e, h, hA⟩
  | detachAll d =>
    obtain ⟨w', e, h, -⟩ := hb.toBase.resetGone fuel d (hfd d) (fun c u _ h hk => hb.ok c u h hk)
    exact ⟨w', _, e, h, hdrop d⟩
  | dispose d =>
    obtain ⟨w', e, h⟩ := hb.dispose fuel d hl (hfd d)
    exact ⟨w', _, e, h, hdrop d⟩
  | attach u c =>
    refine ⟨_, A, rfl, ?_, hA⟩
    by_cases hc : (w.units u).ctx = none
    · rw [if_pos hc]
      exact hb.setUnit u _ (Decidable.byContradiction (fun hk => (hb.kinds u hk).2 hc))
    · rw [if_neg hc]; exact hb
  | detach u =>
    exact ⟨_, A, rfl, hb.setUnit u _ hl, hA⟩
  | use u type d =>
    cases d with
    | none =>
      obtain ⟨w', A', e, h, hA'⟩ := hb.useNone fuel u type hl hfd'
      refine ⟨w', A', e, h, ?_⟩
      rcases hA' with h | h <;> subst h
      · exact hA
      · exact A.bind_length u none k hk
    | some d =>
      obtain ⟨w', A', e, h, hA'⟩ := hb.useData fuel u type d hl hfd'
      refine ⟨w', A', e, h, ?_⟩
      rcases hA' with h | h <;> subst h
      · exact hA
      · exact A.bind_length u (some d) k hk
  | waveform u =>
    obtain ⟨l, e, r⟩ := hb.unbind fuel u hfd' { w.units u with kind := .builtin } rfl
    refine ⟨_, _, ?_, r, A.bind_length u none k hk⟩
    show w.waveform fuel u = _
    unfold DWorld.waveform
    rw [e, ok_bind]
    rfl
  | range u => exact ⟨_, A, rfl, hb.range u, hA⟩
  | play u => exact ⟨w, A, hb.play u, hb, hA⟩
  | disposeUnit u =>
    obtain ⟨l, e, r⟩ := hb.unbind fuel u hfd' {} rfl
    refine ⟨_, _, ?_, r, A.bind_length u none k hk⟩
    show (do let l ← w.links.dataBind fuel u none; return _) = _
    rw [e, ok_bind]
    rfl

theorem DWorld.Fine.empty : DWorld.Fine {} (fun _ => []) where
  links := .empty
  fresh := fun _ _ => rfl
  dead := fun _ _ => rfl
  copy := fun _ h => nomatch h
  data := fun _ h => nomatch h
  chan := fun _ h => nomatch h
  own := fun _ _ _ h => nomatch h
  kinds := fun _ h => absurd rfl h
  ok := fun _ _ h => nomatch h

theorem DWorld.Fine.run (fuel : Nat) : ∀ (ops : List DataOp) (w : DWorld) (A : Lists) (k : Nat), w.Fine A →
    w.LegalRun fuel ops → (∀ d, (A d).length ≤ k) → k + ops.length + 1 ≤ fuel →
    ∃ w' A', w.run fuel ops = .ok w' ∧ w'.Fine A'
  | [], w, A, _, hb, _, _, _ => ⟨w, A, rfl, hb⟩
  | op :: ops, w, A, k, hb, hl, hk, hf => by
    simp only [List.length_cons] at hf
    obtain ⟨w1, A1, e1, h1, k1⟩ := hb.exec fuel k op hl.1 hk (by omega)
    obtain ⟨w2, A2, e2, h2⟩ := DWorld.Fine.run fuel ops w1 A1 (k + 1) h1 (hl.2 w1 e1) k1 (by omega)
    refine ⟨w2, A2, ?_, h2⟩
    unfold DWorld.run
    rw [e1, ok_bind]
    exact e2

end BK

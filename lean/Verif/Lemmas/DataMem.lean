import Verif.Lemmas.DataState
import Verif.Spec.DataMem
/-! Memory of data objects: what holds after legal calls. -/
namespace BK

/-- `n` frames may be accessed. -/
def PtrOk (heap : Nat → Option Nat) (n : Nat) : Option Ptr → Prop
  | none => n = 0
  | some (.user size) => n ≤ size
  | some (.lib id) => ∃ size, heap id = some size ∧ n ≤ size

theorem access_ok {w : DWorld} {n : Nat} {p : Option Ptr} (h : PtrOk w.heap n p) : w.access n p = .ok () := by
  unfold DWorld.access
  match p, h with
  | none, h => exact if_pos h
  | some (.user size), h => exact if_pos h
  | some (.lib id), ⟨size, h1, h2⟩ => dsimp only; rw [h1]; exact if_pos h2

theorem PtrOk.le {heap : Nat → Option Nat} {n k : Nat} {p : Option Ptr} (h : PtrOk heap n p) (hk : k ≤ n) :
    PtrOk heap k p := by
  match p, h with
  | none, h => have h : n = 0 := h; show k = 0; omega
  | some (.user size), h => have h : n ≤ size := h; show k ≤ size; omega
  | some (.lib id), ⟨size, h1, h2⟩ => exact ⟨size, h1, by omega⟩

theorem PtrOk.upd {heap : Nat → Option Nat} {n i : Nat} {p : Option Ptr} (x : Option Nat) (h : PtrOk heap n p)
    (hi : p ≠ some (.lib i)) : PtrOk (upd heap i x) n p := by
  match p, h with
  | none, h => exact h
  | some (.user size), h => exact h
  | some (.lib id), ⟨size, h1, h2⟩ =>
    have : id ≠ i := fun e => hi (by rw [e])
    exact ⟨size, by rw [upd_ne _ _ this]; exact h1, h2⟩

/-- Memory is in order; `A` are the users of the data objects. -/
structure DWorld.Base (w : DWorld) (A : Lists) : Prop where
  links : w.links.SRepr A
  fresh : ∀ id, w.nextId ≤ id → w.heap id = none
  dead : ∀ d, (w.datas d).alive = false → A d = []
  copy : ∀ d, (w.datas d).alive = true → (w.datas d).copy = true → ∃ id, (w.datas d).frames = some (.lib id)
  data : ∀ d, (w.datas d).alive = true →
    PtrOk w.heap ((w.datas d).numFrames * (w.datas d).numChannels) (w.datas d).frames
  chan : ∀ d, (w.datas d).alive = true → 2 ≤ (w.datas d).numFrames → 1 ≤ (w.datas d).numChannels
  own : ∀ d e id, (w.datas d).alive = true → (w.datas e).alive = true → (w.datas d).frames = some (.lib id) →
    (w.datas e).frames = some (.lib id) → d = e
  kinds : ∀ u, (w.units u).kind ≠ .builtin → (∃ d, u ∈ A d) ∧ (w.units u).ctx ≠ none

/-- A user of `d` may play. -/
def DWorld.UserOk (w : DWorld) (d u : Nat) : Prop :=
  ((w.units u).kind = .sample → (w.units u).chans = (w.datas d).numChannels) ∧
  PtrOk w.heap (w.units u).need (w.units u).frames ∧
  ∀ e id, (w.units u).frames = some (.lib id) → (w.datas e).alive = true →
    (w.datas e).frames = some (.lib id) → e = d

/-- Everything is in order. -/
structure DWorld.Fine (w : DWorld) (A : Lists) : Prop extends w.Base A where
  ok : ∀ d u, u ∈ A d → (w.units u).kind ≠ .builtin → w.UserOk d u

/-- A live piece of memory is not the next one to be allocated. -/
theorem DWorld.Base.ne_next {w : DWorld} {A : Lists} (hb : w.Base A) {n : Nat} {p : Option Ptr}
    (h : PtrOk w.heap n p) : p ≠ some (.lib w.nextId) := by
  intro e
  subst e
  obtain ⟨size, h1, _⟩ := h
  rw [hb.fresh _ (Nat.le_refl _)] at h1
  cases h1

theorem dropOk_none : ∀ (R K : List Nat) (prev : Option Nat), DropOk (fun _ => false) K prev R
  | [], _, _ => trivial
  | _ :: R, _, _ => dropOk_none R _ _

theorem trySet_builtin (x : DUnit) (D : Option DData) (disp : Bool) : (x.trySet D .builtin disp).2 = x := by
  unfold DUnit.trySet
  cases x.ctx <;> rfl

/-- Notification: each user is notified once. -/
theorem DWorld.Base.reset {w : DWorld} {A : Lists} (hb : w.Base A) (fuel d : Nat) (disp : Bool)
    (hf : (A d).length + 1 ≤ fuel)
    (hs : disp = false → ∀ u ∈ A d, (w.units u).kind ≠ .builtin ∧
      ((w.units u).trySet (some (w.datas d)) (w.units u).kind false).1 = true) :
    ∃ l', w.reset fuel d disp = .ok { w with
        links := l'
        units := fun u => if u ∈ A d then
          ((w.units u).trySet (some (w.datas d)) (w.units u).kind disp).2 else w.units u } ∧
      l'.SRepr (A.drop d (fun _ => disp)) := by
  obtain ⟨l', us, e, r, p⟩ := hb.links.reset (w.cb disp) disp d fuel (fun _ => disp)
    (fun pre us => ∀ u, us u = if u ∈ pre then
      ((w.units u).trySet (some (w.datas d)) (w.units u).kind disp).2 else w.units u) w.units
    (by
      intro pre s us hpre hus
      have hnd := hb.links.nodup d
      obtain ⟨post, hpost⟩ := hpre
      rw [← hpost] at hnd
      have hsn : s ∉ pre := by
        intro c
        have := (List.nodup_append.1 (List.nodup_append.1 hnd).1).2.2 s c s (by simp)
        exact this rfl
      have hsA : s ∈ A d := by rw [← hpost]; simp
      have hx : us s = w.units s := by rw [hus s, if_neg hsn]
      unfold DWorld.cb
      dsimp only
      by_cases hk : (w.units s).kind = .builtin
      · rw [hx, if_pos hk]
        refine ⟨_, _, rfl, ?_, ?_⟩
        · cases disp with
          | true => rfl
          | false => exact absurd hk (hs rfl s hsA).1
        · intro u
          by_cases hu : u = s
          · subst hu
            rw [if_pos (by simp), hk, trySet_builtin]
            exact hx
          · rw [hus u]
            by_cases hp : u ∈ pre
            · rw [if_pos hp, if_pos (by simp [hp])]
            · rw [if_neg hp, if_neg (by simp [hp, hu])]
      rw [hx, if_neg hk, (hb.links.owner s d).2 hsA]
      refine ⟨_, _, rfl, ?_, ?_⟩
      · cases disp with
        | true => simp
        | false => rw [Option.map_some, (hs rfl s hsA).2]; rfl
      · intro u
        by_cases hu : u = s
        · subst hu
          rw [upd_self, if_pos (by simp)]
          rfl
        · rw [upd_ne _ _ hu, hus u]
          by_cases hp : u ∈ pre
          · rw [if_pos hp, if_pos (by simp [hp])]
          · rw [if_neg hp, if_neg (by simp [hp, hu])])
    (by cases disp; exact dropOk_none _ _ _; exact dropOk_all _) hf (fun u => by rw [if_neg (by simp)])
  refine ⟨l', ?_, r⟩
  unfold DWorld.reset
  rw [e, ok_bind]
  have : us = fun u => if u ∈ A d then
      ((w.units u).trySet (some (w.datas d)) (w.units u).kind disp).2 else w.units u := funext p
  rw [← this]
  rfl

theorem Lists.drop_false (A : Lists) (d : Nat) : A.drop d (fun _ => false) = A := by
  funext c
  unfold Lists.drop
  split
  · simp
  · rfl

theorem Lists.drop_true (A : Lists) (d c : Nat) : A.drop d (fun _ => true) c = if c = d then [] else A c := by
  unfold Lists.drop
  split
  · simp
  · rfl

/-- The unit plays the data `D`. -/
def Plays (x : DUnit) (D : DData) (type : UKind) (r : Bool × DUnit) : Prop :=
  r.1 = true ∧ r.2.ctx = x.ctx ∧ r.2.kind = type ∧ r.2.frames = D.frames ∧
  r.2.need ≤ D.numFrames * D.numChannels ∧ (type = .sample → r.2.chans = D.numChannels)

theorem trySet_ok {x : DUnit} {D : DData} {type : UKind} {c : Nat} (hc : x.ctx = some c) (ht : type ≠ .builtin)
    (hn : 2 ≤ D.numFrames) (hch : 1 ≤ D.numChannels)
    (hs : type = .sample → D.numChannels = 1 ∨ D.numChannels = c) :
    Plays x D type (x.trySet (some D) type false) := by
  unfold DUnit.trySet
  rw [hc]
  cases type with
  | builtin => exact absurd rfl ht
  | custom =>
    dsimp only
    rw [if_pos hn]
    refine ⟨rfl, hc.symm, rfl, rfl, ?_, fun h => by cases h⟩
    dsimp only
    have : D.numFrames * 1 ≤ D.numFrames * D.numChannels := Nat.mul_le_mul_left _ hch
    omega
  | sample =>
    dsimp only
    rw [if_neg (fun h => (hs rfl).elim h.1 h.2), if_neg (by omega)]
    exact ⟨rfl, hc.symm, rfl, rfl, Nat.le_refl _, fun _ => rfl⟩

theorem trySet_true {x : DUnit} {D : DData} {type : UKind} (h : (x.trySet (some D) type false).1 = true) :
    ∃ c, x.ctx = some c ∧ 2 ≤ D.numFrames ∧ (type = .sample → D.numChannels = 1 ∨ D.numChannels = c) := by
  unfold DUnit.trySet at h
  cases hc : x.ctx with
  | none => rw [hc] at h; cases h
  | some c =>
    rw [hc] at h
    refine ⟨c, rfl, ?_⟩
    cases type with
    | builtin => cases h
    | custom =>
      dsimp only at h
      split at h
      · rename_i hn; exact ⟨hn, fun h => by cases h⟩
      · cases h
    | sample =>
      dsimp only at h
      split at h
      · cases h
      · rename_i h1
        split at h
        · cases h
        · exact ⟨by omega, fun _ => by omega⟩

theorem trySet_false {x : DUnit} {D : DData} {type : UKind} (h : (x.trySet (some D) type false).1 = false) :
    (x.trySet (some D) type false).2 = x := by
  unfold DUnit.trySet at h ⊢
  cases hc : x.ctx with
  | none => rfl
  | some c =>
    rw [hc] at h
    cases type with
    | builtin => rfl
    | custom =>
      dsimp only at h ⊢
      split at h
      · cases h
      · rename_i hn; rw [if_neg hn]
    | sample =>
      dsimp only at h ⊢
      split at h
      · rename_i h1; rw [if_pos h1]
      · rename_i h1
        rw [if_neg h1]
        split at h
        · rename_i h2; rw [if_pos h2]
        · cases h

theorem trySet_gone {x : DUnit} {D : Option DData} (hc : x.kind ≠ .builtin → x.ctx ≠ none) :
    (x.trySet D x.kind true).2.kind = .builtin := by
  cases hx : x.kind with
  | builtin => rw [trySet_builtin]; exact hx
  | custom =>
    unfold DUnit.trySet
    cases h : x.ctx with
    | none => exact absurd h (hc (by rw [hx]; simp))
    | some c =>
      dsimp only
      cases D <;> (dsimp only; rw [if_pos hx])
  | sample =>
    unfold DUnit.trySet
    cases h : x.ctx with
    | none => exact absurd h (hc (by rw [hx]; simp))
    | some c =>
      dsimp only
      cases D <;> (dsimp only; rw [if_pos hx])

/-- The data `d` has changed and its users accept that. -/
theorem DWorld.Base.resetChange {w : DWorld} {A : Lists} (hb : w.Base A) (fuel d : Nat)
    (hf : (A d).length + 1 ≤ fuel) (ha : (w.datas d).alive = true) (hn : 2 ≤ (w.datas d).numFrames)
    (hs : ∀ u ∈ A d, (w.units u).kind ≠ .builtin ∧ ((w.units u).kind = .sample →
      (w.datas d).numChannels = 1 ∨ (w.units u).ctx = some (w.datas d).numChannels))
    (ho : ∀ c u, c ≠ d → u ∈ A c → (w.units u).kind ≠ .builtin → w.UserOk c u) :
    ∃ w', w.reset fuel d false = .ok w' ∧ w'.Fine A := by
  have key : ∀ u ∈ A d, Plays (w.units u) (w.datas d) (w.units u).kind
      ((w.units u).trySet (some (w.datas d)) (w.units u).kind false) := fun u hu => by
    obtain ⟨c, hc⟩ := Option.ne_none_iff_exists'.1 (hb.kinds u (hs u hu).1).2
    exact trySet_ok (x := w.units u) (D := w.datas d) hc (hs u hu).1 hn (hb.chan d ha hn)
      (fun h => ((hs u hu).2 h).imp id (fun h => by rw [hc] at h; exact (Option.some.inj h).symm))
  obtain ⟨l', e, r⟩ := hb.reset fuel d false hf (fun _ u hu => ⟨(hs u hu).1, (key u hu).1⟩)
  rw [Lists.drop_false] at r
  refine ⟨_, e, ?_⟩
  have hu1 : ∀ u, u ∈ A d → (if u ∈ A d then
      ((w.units u).trySet (some (w.datas d)) (w.units u).kind false).2 else w.units u) =
      ((w.units u).trySet (some (w.datas d)) (w.units u).kind false).2 := fun u h => if_pos h
  have hu2 : ∀ u, u ∉ A d → (if u ∈ A d then
      ((w.units u).trySet (some (w.datas d)) (w.units u).kind false).2 else w.units u) = w.units u :=
    fun u h => if_neg h
  refine ⟨⟨r, hb.fresh, hb.dead, hb.copy, hb.data, hb.chan, hb.own, ?_⟩, ?_⟩
  · intro u hk
    dsimp only at hk ⊢
    by_cases hu : u ∈ A d
    · rw [hu1 u hu]
      obtain ⟨-, k2, -⟩ := key u hu
      rw [k2]
      exact hb.kinds u (hs u hu).1
    · rw [hu2 u hu] at hk ⊢
      exact hb.kinds u hk
  · intro c u hu hk
    unfold DWorld.UserOk
    dsimp only at hk ⊢
    by_cases hd : u ∈ A d
    · have hcd : c = d := Classical.byContradiction (fun h => hb.links.other hd h hu)
      subst hcd
      rw [hu1 u hd]
      obtain ⟨-, k2, k3, k4, k5, k6⟩ := key u hd
      rw [k3, k4]
      exact ⟨k6, (hb.data c ha).le k5, fun e id h1 h2 h3 => hb.own e c id h2 ha h3 h1⟩
    · rw [hu2 u hd] at hk ⊢
      exact ho c u (fun h => hd (h ▸ hu)) hu hk

/-- The data `d` goes away. -/
theorem DWorld.Base.resetGone {w : DWorld} {A : Lists} (hb : w.Base A) (fuel d : Nat)
    (hf : (A d).length + 1 ≤ fuel) (ho : ∀ c u, c ≠ d → u ∈ A c → (w.units u).kind ≠ .builtin → w.UserOk c u) :
    ∃ w', w.reset fuel d true = .ok w' ∧ w'.Fine (A.drop d (fun _ => true)) ∧ w'.datas = w.datas ∧
      w'.heap = w.heap := by
  obtain ⟨l', e, r⟩ := hb.reset fuel d true hf (fun h => by cases h)
  refine ⟨_, e, ?_, rfl, rfl⟩
  have hu1 : ∀ u, u ∈ A d → (if u ∈ A d then
      ((w.units u).trySet (some (w.datas d)) (w.units u).kind true).2 else w.units u).kind = .builtin := fun u h => by
    rw [if_pos h, trySet_gone (fun hk => (hb.kinds u hk).2)]
  have hu2 : ∀ u, u ∉ A d → (if u ∈ A d then
      ((w.units u).trySet (some (w.datas d)) (w.units u).kind true).2 else w.units u) = w.units u :=
    fun u h => if_neg h
  have hm : ∀ c u, u ∈ A.drop d (fun _ => true) c → c ≠ d ∧ u ∈ A c ∧ u ∉ A d := fun c u h => by
    rw [Lists.drop_true] at h
    split at h
    · cases h
    · rename_i hc
      exact ⟨hc, h, fun h' => hb.links.other h (fun e => hc e.symm) h'⟩
  refine ⟨⟨r, hb.fresh, ?_, hb.copy, hb.data, hb.chan, hb.own, ?_⟩, ?_⟩
  · intro c hc
    rw [Lists.drop_true]
    split
    · rfl
    · exact hb.dead c hc
  · intro u hk
    dsimp only at hk ⊢
    by_cases hu : u ∈ A d
    · rw [hu1 u hu] at hk
      exact absurd rfl hk
    · rw [hu2 u hu] at hk ⊢
      obtain ⟨⟨c, hc⟩, hx⟩ := hb.kinds u hk
      refine ⟨⟨c, ?_⟩, hx⟩
      rw [Lists.drop_true, if_neg (fun h : c = d => hu (h ▸ hc))]
      exact hc
  · intro c u hu hk
    obtain ⟨h1, h2, h3⟩ := hm c u hu
    unfold DWorld.UserOk
    dsimp only at hk ⊢
    rw [hu2 u h3] at hk ⊢
    exact ho c u h1 h2 hk

theorem upd_upd {α : Type} (f : Nat → α) (i : Nat) (a b : α) : upd (upd f i a) i b = upd f i b := by
  funext j
  by_cases h : j = i
  · subst h; rw [upd_self, upd_self]
  · rw [upd_ne _ _ h, upd_ne _ _ h, upd_ne _ _ h]

/-- Data `d` gets other memory: memory is in order, and the users of other data are not affected. -/
theorem DWorld.Fine.replace {w : DWorld} {A : Lists} (hb : w.Fine A) (d : Nat) (D : DData) (h1 : Nat → Option Nat)
    (n1 : Nat) (hf : ∀ id, n1 ≤ id → h1 id = none) (hw : (w.datas d).alive = true) (ha : D.alive = true)
    (hc : D.copy = true → ∃ id, D.frames = some (.lib id)) (hd : PtrOk h1 (D.numFrames * D.numChannels) D.frames)
    (hch : 2 ≤ D.numFrames → 1 ≤ D.numChannels)
    (hnew : ∀ id, D.frames = some (.lib id) → id = w.nextId ∨ (w.datas d).frames = some (.lib id))
    (hk : ∀ n p, PtrOk w.heap n p → (∀ id, p = some (.lib id) → (w.datas d).frames ≠ some (.lib id)) → PtrOk h1 n p) :
    ({ w with heap := h1, nextId := n1, datas := upd w.datas d D } : DWorld).Base A ∧
    ∀ c u, c ≠ d → u ∈ A c → (w.units u).kind ≠ .builtin →
      ({ w with heap := h1, nextId := n1, datas := upd w.datas d D } : DWorld).UserOk c u := by
  have un : ∀ e, e ≠ d → upd w.datas d D e = w.datas e := fun e h => upd_ne _ _ h
  have us : upd w.datas d D d = D := upd_self _ _ _
  have new : ∀ e id, e ≠ d → (w.datas e).alive = true → D.frames = some (.lib id) → (w.datas e).frames ≠ some (.lib id) := by
    intro e id he hae h2 h3
    rcases hnew id h2 with h4 | h4
    · exact hb.ne_next (hb.data e hae) (h4 ▸ h3)
    · exact he (hb.own e d id hae hw h3 h4)
  refine ⟨⟨hb.links, hf, ?_, ?_, ?_, ?_, ?_, hb.kinds⟩, ?_⟩
  · intro e he
    dsimp only at he
    by_cases h : e = d
    · subst h; rw [us, ha] at he; cases he
    · rw [un e h] at he; exact hb.dead e he
  · intro e he
    dsimp only at he ⊢
    by_cases h : e = d
    · subst h; rw [us]; exact hc
    · rw [un e h] at he ⊢; exact hb.copy e he
  · intro e he
    dsimp only at he ⊢
    by_cases h : e = d
    · subst h; rw [us]; exact hd
    · rw [un e h] at he ⊢
      exact hk _ _ (hb.data e he) (fun id h2 h3 => h (hb.own e d id he hw h2 h3))
  · intro e he
    dsimp only at he ⊢
    by_cases h : e = d
    · subst h; rw [us]; exact hch
    · rw [un e h] at he ⊢; exact hb.chan e he
  · intro e f id he hf' h2 h3
    dsimp only at he hf' h2 h3
    by_cases h : e = d
    · by_cases h' : f = d
      · rw [h, h']
      · rw [un f h'] at hf' h3
        rw [h, us] at h2
        exact absurd h3 (new f id h' hf' h2)
    · rw [un e h] at he h2
      by_cases h' : f = d
      · rw [h', us] at h3
        exact absurd h2 (new e id h he h3)
      · rw [un f h'] at hf' h3
        exact hb.own e f id he hf' h2 h3
  · intro c u hcd hu hk'
    obtain ⟨u1, u2, u3⟩ := hb.ok c u hu hk'
    unfold DWorld.UserOk
    dsimp only
    rw [un c hcd]
    refine ⟨u1, hk _ _ u2 (fun id h2 h3 => hcd (u3 d id h2 hw h3).symm), ?_⟩
    intro e id h2 h3 h4
    by_cases h : e = d
    · rw [h, us] at h4
      rcases hnew id h4 with h5 | h5
      · exact absurd (h5 ▸ h2) (hb.ne_next u2)
      · rw [h]; exact u3 d id h2 hw h5
    · rw [un e h] at h3 h4
      exact u3 e id h2 h3 h4

end BK

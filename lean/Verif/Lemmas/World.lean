import Verif.Model.World
import Verif.Lemmas.Links
/-!
Disposing a context empties its lists.
-/
namespace BK

theorem Links.Repr.elsewhere {h : Links} {A : Lists} (hr : h.Repr A) {n c d : Nat} (hn : n ∈ A c) (hd : d ≠ c) : n ∉ A d := by
  intro hm
  have h1 := (hr.owner n c).2 hn
  have h2 := (hr.owner n d).2 hm
  rw [h1] at h2
  exact hd (Option.some.inj h2).symm

theorem Links.Repr.detachAll (c : Nat) : ∀ (l : List Nat) {h : Links} {A : Lists} (fuel : Nat), h.Repr A → A c = l →
    l.length ≤ fuel → ∃ h', h.detachAll fuel l.head? = .ok h' ∧ h'.Repr fun d => if d = c then [] else A d
  | [], h, A, fuel, hr, hA, _ => by
    refine ⟨h, by cases fuel <;> rfl, ?_⟩
    have : (fun d => if d = c then [] else A d) = A := by
      funext d
      split
      · rename_i e; subst e; exact hA.symm
      · rfl
    rw [this]; exact hr
  | n :: r, h, A, 0, hr, hA, hf => absurd hf (by simp)
  | n :: r, h, A, fuel + 1, hr, hA, hf => by
    have hx := (hr.split c [] n r hA).2
    obtain ⟨A', h1, h2⟩ := hr.detach n
    unfold Lists.Detach at h2
    have hnd := hr.nodup c
    rw [hA] at hnd
    have hnr := (List.nodup_cons.1 hnd).1
    have hc : A' c = r := by
      rw [h2]
      dsimp only
      rw [hA]
      simp only [List.filter_cons]
      rw [if_neg (by simp)]
      exact List.filter_eq_self.2 fun x hm => by
        simp only [decide_eq_true_eq]
        intro e; subst e; exact hnr hm
    obtain ⟨h', g1, g2⟩ := Links.Repr.detachAll c r fuel h1 hc (by simpa using hf)
    refine ⟨h', ?_, ?_⟩
    · unfold Links.detachAll
      rw [List.head?_cons]
      dsimp only
      rw [hx]
      exact g1
    · have : (fun d => if d = c then [] else A' d) = fun d => if d = c then [] else A d := by
        funext d
        split
        · rfl
        · rename_i hd
          rw [h2]
          refine List.filter_eq_self.2 fun x hm => ?_
          simp only [decide_eq_true_eq]
          intro e; subst e
          exact hr.elsewhere (c := c) (d := d) (n := x) (by rw [hA]; simp) hd hm
      rw [this] at g2
      exact g2

end BK

import Verif.Model.SeqCopy
import Verif.Props.Sequence
/-! Copies of sequences: C28. -/
namespace BK

theorem SeqBlocks.run_eq {h : SeqBlocks} {i : Nat} {b v : SeqBlock} (hb : h.get i = .ok b)
    (hv : h.get b.values = .ok v) (ops : List SeqOp) : ∀ st, h.run i st ops =
      SimpleSeq.run ⟨v.data, b.length, b.sustainOffset, b.sustainLength⟩ st ops := by
  induction ops with
  | nil => intro st; rfl
  | cons op ops ih =>
    intro st
    unfold SeqBlocks.run SimpleSeq.run SeqBlocks.exec
    simp only [hb, ok_bind, hv]
    cases SimpleSeq.exec ⟨v.data, b.length, b.sustainOffset, b.sustainLength⟩ st op with
    | error e => rfl
    | ok r => simp only [ok_bind]; rw [ih]

/-- C28 fails, for every sequence that has at least one value: once the original is disposed, the
first attack on the copy reads freed memory. -/
theorem C28_refuted (h : SeqBlocks) (vals : List Int) (so sl : Int) (hl : vals.length < 536870912)
    (hne : vals ≠ []) (hso : InI32 so) (hsl : InI32 sl) :
    ∃ h1 i h2 j h3, h.create vals so sl = .ok (some (h1, i)) ∧ h1.copy i = .ok (h2, j) ∧
      h2.dispose i = .ok h3 ∧ ∀ st, h3.exec j st (.setPhase .attack) = .error .useAfterFree := by
  have hpos : 0 < vals.length := List.length_pos_iff.2 hne
  have hc := SimpleSeq.create_eq hl hso hsl
  generalize sustainBegin vals.length so = b at *
  generalize sustainSize vals.length so sl = z at *
  let B : SeqBlock := ⟨vals.length, b, z, h.length, vals⟩
  let B' : SeqBlock := { B with data := [] }
  refine ⟨h ++ [some B], h.length, h ++ [some B] ++ [some B'], h.length + 1,
    (h ++ [some B] ++ [some B']).set h.length none, ?_, ?_, ?_, ?_⟩
  · unfold SeqBlocks.create
    rw [hc]
    rfl
  · have hg : SeqBlocks.get (h ++ [some B]) h.length = .ok B := by
      simp [SeqBlocks.get]
    unfold SeqBlocks.copy
    rw [hg]
    simp only [ok_bind]
    have hg2 : SeqBlocks.get (h ++ [some B]) B.values = .ok B := hg
    rw [hg2]
    simp [B']
  · unfold SeqBlocks.dispose
    simp
  · intro st
    have hg : SeqBlocks.get ((h ++ [some B] ++ [some B']).set h.length none) (h.length + 1) = .ok B' := by
      simp [SeqBlocks.get]
    have hg2 : SeqBlocks.get ((h ++ [some B] ++ [some B']).set h.length none) B'.values =
        .error .useAfterFree := by
      simp [SeqBlocks.get, B', B]
    have hx : SimpleSeq.exec ⟨[], B'.length, B'.sustainOffset, B'.sustainLength⟩ st
        (.setPhase .attack) = .error .oob := by
      have h0 : (0 : Int) < vals.length := by omega
      simp only [SimpleSeq.exec, SimpleSeq.setPhase, pure_eq_ok, ok_bind, B', B]
      rw [if_pos h0]
      rfl
    unfold SeqBlocks.exec
    rw [hg]
    simp only [ok_bind]
    rw [hg2, hx]

/-- C28, the part that holds: as long as the original lives, the copy plays the values given at
creation, exactly like a sequence created from them; and disposing the copy leaves the original
playing them. -/
theorem C28_partial (h : SeqBlocks) (vals : List Int) (so sl : Int) (hl : vals.length < 536870912)
    (hso : InI32 so) (hsl : InI32 sl) :
    ∃ q h1 i h2 j h3, SimpleSeq.create vals so sl = .ok (some q) ∧
      h.create vals so sl = .ok (some (h1, i)) ∧ h1.copy i = .ok (h2, j) ∧
      h2.dispose j = .ok h3 ∧ i ≠ j ∧ ∀ st ops,
        h2.run j st ops = q.run st ops ∧ h2.run i st ops = q.run st ops ∧
        h3.run i st ops = q.run st ops := by
  have hc := SimpleSeq.create_eq hl hso hsl
  generalize sustainBegin vals.length so = b at *
  generalize sustainSize vals.length so sl = z at *
  let B : SeqBlock := ⟨vals.length, b, z, h.length, vals⟩
  let B' : SeqBlock := { B with data := [] }
  have hg : SeqBlocks.get (h ++ [some B]) h.length = .ok B := by
    simp [SeqBlocks.get]
  have g1 : SeqBlocks.get (h ++ [some B] ++ [some B']) (h.length + 1) = .ok B' := by
    simp [SeqBlocks.get]
  have g2 : SeqBlocks.get (h ++ [some B] ++ [some B']) h.length = .ok B := by
    simp [SeqBlocks.get]
  have g3 : SeqBlocks.get ((h ++ [some B] ++ [some B']).set (h.length + 1) none) h.length = .ok B := by
    simp [SeqBlocks.get]
  refine ⟨⟨vals, vals.length, b, z⟩, h ++ [some B], h.length, h ++ [some B] ++ [some B'],
    h.length + 1, (h ++ [some B] ++ [some B']).set (h.length + 1) none, hc, ?_, ?_, ?_, by omega, ?_⟩
  · unfold SeqBlocks.create
    rw [hc]
    rfl
  · unfold SeqBlocks.copy
    rw [hg]
    simp only [ok_bind]
    have hg2 : SeqBlocks.get (h ++ [some B]) B.values = .ok B := hg
    rw [hg2]
    simp [B']
  · unfold SeqBlocks.dispose
    simp
  · intro st ops
    refine ⟨?_, ?_, ?_⟩
    · exact SeqBlocks.run_eq g1 (v := B) g2 ops st
    · exact SeqBlocks.run_eq g2 (v := B) g2 ops st
    · exact SeqBlocks.run_eq g3 (v := B) g3 ops st

example : (SeqBlocks.copy [some ⟨2, 2, 0, 0, [5, 6]⟩] 0).isOk = true ∧
    SeqBlocks.exec [none, some ⟨2, 2, 0, 0, []⟩] 1 {} (.setPhase .attack) = .error .useAfterFree := by
  decide +kernel

end BK

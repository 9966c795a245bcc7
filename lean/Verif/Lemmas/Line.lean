import Mathlib.Tactic.Ring
import Mathlib.Tactic.Linarith
import Verif.Spec.Line
/-!
Adding a rounded slope gives nearly a straight line.
-/
namespace BK

theorem tdiv_nearLine {sv E : Int} {n j : Nat} (hj : j < n) (hn : n ≤ 32768) :
    NearLine n (sv / 2 ^ 15) E j ((sv + j * ((E * 2 ^ 15 - sv).tdiv n)) / 2 ^ 15) := by
  unfold NearLine
  have hd := Int.mul_tdiv_add_tmod (E * 2 ^ 15 - sv) n
  have hr : -(n : Int) < (E * 2 ^ 15 - sv).tmod n ∧ (E * 2 ^ 15 - sv).tmod n < (n : Int) :=
    ⟨Int.lt_tmod_of_pos _ (by omega), Int.tmod_lt_of_pos _ (by omega)⟩
  generalize (E * 2 ^ 15 - sv).tdiv n = del at *
  generalize (E * 2 ^ 15 - sv).tmod n = rho at *
  have hq1 := Int.ediv_mul_le (sv + j * del) (b := 2 ^ 15) (by decide)
  have hq2 := Int.lt_ediv_add_one_mul_self (sv + j * del) (b := 2 ^ 15) (by decide)
  have hs1 := Int.ediv_mul_le sv (b := 2 ^ 15) (by decide)
  have hs2 := Int.lt_ediv_add_one_mul_self sv (b := 2 ^ 15) (by decide)
  generalize (sv + j * del) / 2 ^ 15 = q at *
  generalize sv / 2 ^ 15 = v at *
  have hn' : (n : Int) ≤ 32768 := by omega
  have hj' : (j : Int) + 1 ≤ n := by omega
  have hj0 : (0 : Int) ≤ j := by omega
  generalize (n : Int) = N at *
  generalize (j : Int) = J at *
  have h1 : N * (sv + J * del) = (N - J) * sv + J * E * 32768 - J * rho := by 
    have : rho = E * 2 ^ 15 - sv - N * del := by omega
    subst this
    ring
  have h2 : J * rho ≤ (N - 1) * 32768 := by nlinarith
  have h3 : -((N - 1) * 32768) ≤ J * rho := by nlinarith
  have h4 : (N - J) * (v * 32768) ≤ (N - J) * sv := by nlinarith
  have h5 : (N - J) * sv ≤ (N - J) * ((v + 1) * 32768) := by nlinarith
  have h6 : N * (q * 32768) ≤ N * (sv + J * del) := by nlinarith
  have h7 : N * (sv + J * del) < N * ((q + 1) * 32768) := by nlinarith
  constructor <;> linarith

end BK

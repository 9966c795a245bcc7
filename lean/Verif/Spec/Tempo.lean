import Verif.Model.Tempo
import Verif.Spec.Context
/-!
When a clock ticks whose period is changed, apart from the model of clocks.
-/
namespace BK

variable {σ : Type}

/-- The period that was set last, or `p` if none was. -/
def lastSet : List (Int × Int) → Int → Int
  | [], p => p
  | c :: cs, _ => lastSet cs c.2

/-- The callback at time `t` may choose the next time, `g t`; otherwise the period is `p`. -/
def chosen (g : Int → Int) (t p : Int) : Int := if t < g t then g t - t else p

/-- The time of tick `k`, and the time from it to the next one.  `sets` are the periods that were set
and when, `p` is the first period.  A period set after a tick is in force from the next tick on. -/
def beat (g : Int → Int) (sets : List (Int × Int)) (p : Int) : Nat → Int × Int
  | 0 => (0, chosen g 0 (lastSet (sets.filter fun c => c.1 ≤ 0) p))
  | k + 1 =>
    let b := beat g sets p k
    let t := b.1 + b.2
    (t, chosen g t (lastSet (sets.filter fun c => b.1 < c.1 ∧ c.1 ≤ t) b.2))

/-- What a program does with a context that sets the period of clock `i` now and then. -/
inductive TempoOp (σ : Type) where
  | call (op : CtxOp σ)
  | period (p : Int)

/-- Make the calls; the periods that were accepted are noted with the time the context reported
before. -/
def Ctx.tempo (chk : Bool) (cb : ClockCb σ) (i : Nat) :
    Ctx σ → List (Int × Int) → List (TempoOp σ) → C (Ctx σ × List (Int × Int))
  | x, sets, [] => .ok (x, sets)
  | x, sets, .call op :: ops => do
    let y ← x.step chk cb op
    Ctx.tempo chk cb i y sets ops
  | x, sets, .period p :: ops =>
    let r := x.setPeriod i p
    Ctx.tempo chk cb i r.2 (if r.1 = .ok then sets ++ [(x.getTime, p)] else sets) ops

/-- Callbacks return a value of their type, and the one of clock `i` chooses `g t` at time `t`. -/
structure CbChoose (cb : ClockCb σ) (i : Nat) (g : Int → Int) : Prop where
  typed : ∀ k t s us r, InI64 t → cb k t s us = .ok r → InI64 r.1
  own : ∀ t s us r, cb i t s us = .ok r → r.1 = g t

end BK

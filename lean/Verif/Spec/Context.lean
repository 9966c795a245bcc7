import Verif.Model.Context
import Verif.Spec.Unit
/-!
What is expected of contexts, apart from the model of their code.
-/
namespace BK

/-- What a program does with a context between setting it up and resetting it. -/
inductive CtxOp (σ : Type) where
  | endAt (time : Int)
  | read (size : Int)
  | generate (size : Int)
  | change (f : σ → List UCore → σ × List UCore)
  | attach (c : UCore)

/-- One call. -/
def Ctx.step {σ : Type} (chk : Bool) (cb : ClockCb σ) (x : Ctx σ) : CtxOp σ → C (Ctx σ)
  | .endAt e => x.endAt chk cb e
  | .read n => do let r ← x.read chk n; return r.2.1
  | .generate n => do let r ← x.generate chk cb n; return r.2.1
  | .change f =>
    let r := f x.user (x.units.map (·.toUCore))
    .ok { x with user := r.1, units := setCores x.units r.2 }
  | .attach c => .ok (x.attachUnit c)

/-- Any number of calls. -/
def Ctx.steps {σ : Type} (chk : Bool) (cb : ClockCb σ) : Ctx σ → List (CtxOp σ) → C (Ctx σ)
  | x, [] => .ok x
  | x, op :: ops => do
    let x ← x.step chk cb op
    Ctx.steps chk cb x ops

/-- A context that has not rendered anything yet, with any clocks (of positive periods), units and
channels. -/
structure Ctx.Fresh {σ : Type} (x : Ctx σ) : Prop where
  delta : x.deltaTime = 0
  now : x.currentTime = 0
  ticks : x.ticks = []
  clocks : ∀ c ∈ x.clocks, c.time = 0 ∧ c.nextTime = 0 ∧ 0 < c.period

/-- The first `m` multiples of `p`. -/
def multiples (p : Int) (m : Nat) : List Int := (List.range m).map fun j : Nat => (j : Int) * p

/-- The times at which clock `i` ticked. -/
def Ctx.ticksOf {σ : Type} (x : Ctx σ) (i : Nat) : List Int :=
  (x.ticks.filter fun t => t.1 == i).map (·.2)

/-- Values written one behind the other from position `base` on. -/
def placed (base : Int) : List Int → List (Int × Int)
  | [] => []
  | v :: vs => (base, v) :: placed (base + 1) vs

/-- A unit state that can be reached from a new unit by calls within the limits of `SampleGentle`. -/
def Reached (n : Nat) (c : UCore) : Prop := ∃ (t : Int) (ps : List Pulse), Reach n (SampleGentle n) { toUCore := c, time := t } ps

/-- Callbacks that change units by such calls, and choose any next time; no tracks. -/
structure CbFine {σ : Type} (n : Nat) (cb : ClockCb σ) : Prop where
  tick : ∀ (k : Nat) (t : Int) (s : σ) (us : List UCore), InI64 t → (∀ c ∈ us, Reached n c) →
    ∃ r, cb k t s us = .ok r ∧ InI64 r.1 ∧ r.2.2.length = us.length ∧ ∀ c ∈ r.2.2, Reached n c
  flush : ∀ (s : σ) (us : List UCore), cb.flush s us = .ok (s, us)

/-- A context that is set up: initialised, then clocks and units attached. -/
inductive Setup {σ : Type} (n : Nat) : Ctx σ → Prop
  | init {user : σ} {chans rate : Int} : InU32 chans → (Ctx.init user chans rate).chans.length = n →
      Setup n (Ctx.init user chans rate)
  | clock {x : Ctx σ} {c : Clk} : Setup n x → 0 < c.period → c.period ≤ 4611686018427387904 → Setup n (x.attachClock c)
  | unit {x : Ctx σ} {c : UCore} : Setup n x → Reached n c → Setup n (x.attachUnit c)

/-- A context that was set up with at least one unit and then used: `T` frames have been generated,
units may have been changed or attached between. -/
inductive Live {σ : Type} (n : Nat) (cb : ClockCb σ) : Int → Ctx σ → Prop
  | start {x : Ctx σ} : Setup n x → x.units ≠ [] → Live n cb 0 x
  | change {T : Int} {x : Ctx σ} {user : σ} {cs : List UCore} : Live n cb T x → cs.length = x.units.length →
      (∀ c ∈ cs, Reached n c) → Live n cb T { x with user := user, units := setCores x.units cs }
  | unit {T : Int} {x : Ctx σ} {c : UCore} : Live n cb T x → Reached n c → Live n cb T (x.attachUnit c)
  | generate {T : Int} {x x' : Ctx σ} {k : Nat} {r : Int} {w : List (Int × Int)} : Live n cb T x → k ≤ 2147483647 →
      T + k ≤ 1099511627776 → x.generate false cb k = .ok (r, x', w) → Live n cb (T + k) x'

end BK

import Verif.Spec.Sound
/-!
What a song should sound like, told without a context: calls are made at times, and between them all
tracks that are attached play on.  Requests, blocks and clocks do not occur here.
-/
namespace BK

/-- Calls that a program may make at a time: all that do not render, and attaching and detaching a
track. -/
def WOp.Here : WOp → Prop
  | .track _ (.attach _ _ delta) => delta = 0
  | .track _ .detach => True
  | op => op.Quiet

/-- How many calls were made. -/
def callCount (L : List (Int × List WOp)) : Nat := (L.flatMap (·.2)).length

/-- Single calls with their times. -/
def timedCalls (L : List (Int × List WOp)) : List (Int × WOp) := L.flatMap fun e => e.2.map fun o => (e.1, o)

/-- Single calls with their times, those before `τ`. -/
def callsBefore (τ : Int) (L : List (Int × List WOp)) : List (Int × WOp) := (timedCalls L).filter fun e => decide (e.1 < τ)

/-- Time passes: each track that is attached plays on and makes steps; nothing else changes. -/
structure TWorld.Waits (s : TWorld) (d : Int) (s' : TWorld) (ps : Nat → List Pulse) : Prop where
  iw : s'.iw = s.iw
  on : ∀ y t, s.tracks y = some t → t.ctx ≠ none → ∃ t', t.run y s.iw d = .ok (t', ps y) ∧
    s'.tracks y = some { t' with unit := { t'.unit with time := t'.unit.time - d } }
  off : ∀ y, (∀ t, s.tracks y = some t → t.ctx = none) → s'.tracks y = s.tracks y

/-- All tracks that are attached. -/
structure TWorld.Lists (s : TWorld) (l : List Nat) : Prop where
  nodup : l.Nodup
  mem : ∀ y, y ∈ l ↔ ∃ t, s.tracks y = some t ∧ t.ctx ≠ none

/-- At time `t` tracks and instruments are in state `s`, the steps `P` were made, and the calls `L` with
their times.  `N` is the number of channels.  Times are not bounded here. -/
inductive Performance (N : Nat) : Int → TWorld → List Pulse → List (Int × List WOp) → Prop
  | start : Performance N 0 {} [] []
  | calls {t : Int} {s s' : TWorld} {P : List Pulse} {L : List (Int × List WOp)} {ops : List WOp} : Performance N t s P L →
      (∀ op ∈ ops, op.Here) → s.LegalRun N (callCount L + ops.length) ops → s.run (callCount L + ops.length) ops = .ok s' →
      Performance N t s' P (L ++ [(t, ops)])
  | wait {t d : Int} {s s' : TWorld} {P : List Pulse} {L : List (Int × List WOp)} {ps : Nat → List Pulse} {l : List Nat} :
      Performance N t s P L → 0 < d → d ≤ 1073741824 → s.Lists l → s.Waits d s' ps →
      Performance N (t + d) s' (P ++ (l.flatMap ps).map (Pulse.later t)) L

/-- A song in a context with clocks, and all samples that were written so far.  The context has a clock
before it renders (the code attaches the master clock with the first track). -/
inductive Concert {υ : Type} (N : Nat) (p : Program υ) : Nat → Ctx (Band υ) → List Int → Prop
  | init {u : υ} {chans rate : Int} : InU32 chans → (Ctx.init ({ user := u } : Band υ) chans rate).chans.length = N →
      Concert N p 0 (Ctx.init { user := u } chans rate) []
  | clock {T : Nat} {x : Ctx (Band υ)} {S : List Int} {c : Clk} : Concert N p T x S → x.currentTime = 0 → x.deltaTime = 0 →
      0 < c.period → c.period ≤ 4611686018427387904 → Concert N p T (x.attachClock c) S
  | calls {T : Nat} {x x' : Ctx (Band υ)} {S : List Int} {ops : List WOp} : Concert N p T x S → (∀ op ∈ ops, op.Quiet) →
      (x.user.world.load x.user.ids (x.units.map (·.toUCore))).LegalRun N (x.user.log.length + ops.length) ops →
      x.perform ops = .ok x' → Concert N p T x' S
  | data {T : Nat} {x : Ctx (Band υ)} {S : List Int} {u : υ} : Concert N p T x S →
      Concert N p T { x with user := { x.user with user := u } } S
  | attach {T : Nat} {x x' : Ctx (Band υ)} {S : List Int} {id : Nat} : Concert N p T x S → x.attachTrack id = .ok x' →
      Concert N p T x' S
  | detach {T : Nat} {x : Ctx (Band υ)} {S : List Int} {id : Nat} : Concert N p T x S → (x.detachTrack id).units ≠ [] →
      Concert N p T (x.detachTrack id) S
  | generate {T : Nat} {x x' : Ctx (Band υ)} {S s : List Int} {k : Nat} {r : Int} {w : List (Int × Int)} : Concert N p T x S →
      x.clocks ≠ [] → x.units ≠ [] → k ≤ 2147483647 → T + k ≤ 1099511627776 → x.generate false p.cb k = .ok (r, x', w) →
      w.Perm (placed 0 s) → Concert N p (T + k) x' (S ++ s)

end BK

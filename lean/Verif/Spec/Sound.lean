import Verif.Spec.Song
/-!
What a song should sound like: tracks are played apart from a context, and all steps which they make are
added up in one long row of frames per channel.
-/
namespace BK

/-- Steps that a call makes. -/
def TWorld.pulsesOf (s : TWorld) : WOp → List Pulse
  | .track y (.run e) =>
    match s.tracks y with
    | none => []
    | some t =>
      match t.run y s.iw e with
      | .ok r => r.2
      | .error _ => []
  | _ => []

/-- Calls one after another, with the steps that are made. -/
def TWorld.trace (fuel : Nat) (s : TWorld) : List WOp → C (TWorld × List Pulse)
  | [] => .ok (s, [])
  | op :: ops => do
    let s' ← s.exec fuel op
    let r ← s'.trace fuel ops
    return (r.1, s.pulsesOf op ++ r.2)

/-- Time passes for all tracks that are attached. -/
def TWorld.pass (d : Int) (s : TWorld) : TWorld :=
  { s with tracks := fun y => (s.tracks y).map fun t =>
      if t.ctx = none then t else { t with unit := { t.unit with time := t.unit.time - d } } }

/-- A step at a later time. -/
def Pulse.later (d : Int) (q : Pulse) : Pulse := { q with time := q.time + d }

/-- Some calls, then time passes; and so on.  The steps have times counted from the very beginning. -/
def TWorld.play (fuel : Nat) (s : TWorld) (start : Int) : List (List WOp × Int) → C (TWorld × List Pulse)
  | [] => .ok (s, [])
  | (ops, d) :: bs => do
    let r ← s.trace fuel ops
    let rs ← (r.1.pass d).play fuel (start + d) bs
    return (rs.1, r.2.map (Pulse.later start) ++ rs.2)

/-- All tracks that are attached are rendered up to a time. -/
def TWorld.Upto (d : Int) (s : TWorld) : Prop := ∀ y t, s.tracks y = some t → t.ctx ≠ none → d ≤ t.unit.time

/-- Before time passes, all tracks that are attached are rendered up to the time that passes. -/
def TWorld.Rendered (fuel : Nat) (s : TWorld) : List (List WOp × Int) → Prop
  | [] => True
  | (ops, d) :: bs => ∀ r, s.trace fuel ops = .ok r → 0 ≤ d ∧ r.1.Upto d ∧ (r.1.pass d).Rendered fuel bs

/-- What a step of height `a` at time `t` adds to frame `n`: the band-limited step has 32 frames. -/
def stepAt (t a : Int) (n : Nat) : Int :=
  if t / U20 ≤ n ∧ n < t / U20 + 32 then (kernelHarm.getD (t % U20 / 32768).toNat []).getD (n - t / U20).toNat 0 * a else 0

/-- All steps on channel `c` in frame `n`. -/
def stepsAt (P : List Pulse) (c n : Nat) : Int := ((onChan c P).map fun q => stepAt q.time q.amp n).sum

/-- The level before frame `n`: frames add up, and the level decays slowly. -/
def levelAt (f : Nat → Int) : Nat → Int
  | 0 => 0
  | n + 1 => wrapI32 (wrapI32 (levelAt f n - levelAt f n / 512) + f n)

/-- The first `T` frames with `N` channels. -/
def soundOf (N T : Nat) (P : List Pulse) : List Int :=
  (List.range T).flatMap fun n => (List.range N).map fun c => outAmp (levelAt (fun m => wrapI32 (stepsAt P c m)) (n + 1))

/-- A song with all samples that were written so far. -/
inductive Recording {υ : Type} (N : Nat) (p : Program υ) : Nat → Ctx (Band υ) → List Int → Prop
  | init {u : υ} {chans rate : Int} : InU32 chans → (Ctx.init ({ user := u } : Band υ) chans rate).chans.length = N →
      Recording N p 0 (Ctx.init { user := u } chans rate) []
  | clock {T : Nat} {x : Ctx (Band υ)} {S : List Int} {c : Clk} : Recording N p T x S → x.currentTime = 0 → x.deltaTime = 0 →
      0 < c.period → c.period ≤ 4611686018427387904 → Recording N p T (x.attachClock c) S
  | calls {T : Nat} {x x' : Ctx (Band υ)} {S : List Int} {ops : List WOp} : Recording N p T x S → (∀ op ∈ ops, op.Quiet) →
      (x.user.world.load x.user.ids (x.units.map (·.toUCore))).LegalRun N (x.user.log.length + ops.length) ops →
      x.perform ops = .ok x' → Recording N p T x' S
  | data {T : Nat} {x : Ctx (Band υ)} {S : List Int} {u : υ} : Recording N p T x S →
      Recording N p T { x with user := { x.user with user := u } } S
  | attach {T : Nat} {x x' : Ctx (Band υ)} {S : List Int} {id : Nat} : Recording N p T x S → x.attachTrack id = .ok x' →
      Recording N p T x' S
  | detach {T : Nat} {x : Ctx (Band υ)} {S : List Int} {id : Nat} : Recording N p T x S → (x.detachTrack id).units ≠ [] →
      Recording N p T (x.detachTrack id) S
  | generate {T : Nat} {x x' : Ctx (Band υ)} {S s : List Int} {k : Nat} {r : Int} {w : List (Int × Int)} : Recording N p T x S →
      x.units ≠ [] → k ≤ 2147483647 → T + k ≤ 1099511627776 → x.generate false p.cb k = .ok (r, x', w) → w.Perm (placed 0 s) →
      Recording N p (T + k) x' (S ++ s)

end BK

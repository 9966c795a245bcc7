import Verif.Model.Band
import Verif.Spec.Context
import Verif.Spec.TrackSafe
/-!
What is expected of whole songs.
-/
namespace BK

/-- Calls on a track that leave it where it is in the context and in time. -/
def TOp.Quiet : TOp → Prop
  | .attach _ _ _ => False
  | .detach => False
  | .reset => False
  | .run _ => False
  | .endAt _ => False
  | _ => True

/-- The same for all calls. -/
def WOp.Quiet : WOp → Prop
  | .track _ op => op.Quiet
  | _ => True

/-- A program that makes calls with usual arguments when clocks tick, and chooses any next time.  `N` is
the number of channels. -/
structure Program.Plays {υ : Type} (N : Nat) (p : Program υ) : Prop where
  next : ∀ k t u (s : TWorld), InI64 t → InI64 (p k t u s).1
  quiet : ∀ k t u (s : TWorld), ∀ op ∈ (p k t u s).2.2, op.Quiet
  legal : ∀ k t u (s : TWorld) fuel, s.LegalRun N fuel (p k t u s).2.2

/-- A context with tracks that was set up and used by a program; `T` frames have been generated.  Clocks
are attached before time passes; between, tracks are created, changed, attached and detached, but one
track stays (without any, the code renders nothing, see C39).  (The code
attaches the master clock with the first track.) -/
inductive Song {υ : Type} (N : Nat) (p : Program υ) : Int → Ctx (Band υ) → Prop
  | init {u : υ} {chans rate : Int} : InU32 chans → (Ctx.init ({ user := u } : Band υ) chans rate).chans.length = N →
      Song N p 0 (Ctx.init { user := u } chans rate)
  | clock {T : Int} {x : Ctx (Band υ)} {c : Clk} : Song N p T x → x.currentTime = 0 → x.deltaTime = 0 → 0 < c.period →
      c.period ≤ 4611686018427387904 → Song N p T (x.attachClock c)
  | calls {T : Int} {x x' : Ctx (Band υ)} {ops : List WOp} : Song N p T x → (∀ op ∈ ops, op.Quiet) →
      (x.user.world.load x.user.ids (x.units.map (·.toUCore))).LegalRun N (x.user.log.length + ops.length) ops →
      x.perform ops = .ok x' → Song N p T x'
  | data {T : Int} {x : Ctx (Band υ)} {u : υ} : Song N p T x → Song N p T { x with user := { x.user with user := u } }
  | attach {T : Int} {x x' : Ctx (Band υ)} {id : Nat} : Song N p T x → x.attachTrack id = .ok x' → Song N p T x'
  | detach {T : Int} {x : Ctx (Band υ)} {id : Nat} : Song N p T x → (x.detachTrack id).units ≠ [] → Song N p T (x.detachTrack id)
  | generate {T : Int} {x x' : Ctx (Band υ)} {k : Nat} {r : Int} {w : List (Int × Int)} : Song N p T x → x.units ≠ [] →
      k ≤ 2147483647 → T + k ≤ 1099511627776 → x.generate false p.cb k = .ok (r, x', w) → Song N p (T + k) x'

/-- Tracks with the units of a context. -/
def TWorld.withUnits (s : TWorld) (ids : List Nat) (us : List BUnit) : TWorld :=
  { s with tracks := fun y => (s.tracks y).map fun t =>
      match coreOf ids us y with
      | some u => { t with unit := u }
      | none => t }

/-- All tracks and instruments of a context as the program sees them. -/
def Ctx.world {υ : Type} (x : Ctx (Band υ)) : TWorld := x.user.world.withUnits x.user.ids x.units

/-- A call that a program makes, not one by which a context renders. -/
def WOp.isCall : WOp → Bool
  | .track _ (.run _) => false
  | .track _ (.endAt _) => false
  | _ => true

end BK

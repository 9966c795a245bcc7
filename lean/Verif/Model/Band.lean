import Verif.Model.Context
import Verif.Model.Track
/-!
Tracks in a context.

A context renders the units of its tracks.  While it runs, clocks tick; what is called then (the
dividers of the tracks, which the context ticks, and the callbacks of the program) is a list of calls
on tracks and instruments that the program chooses.  Before a unit is rendered, its track brings it up
to date.

Between calls the units are in the list of the context (`Ctx.units`), and the rest of the tracks is in
the state of the program; the unit in the record of a track that is attached is then blank.  So no
state is kept twice.
-/
namespace BK

/-- What a program keeps: tracks and instruments, the tracks that are attached to the context in the
order of its units, and its own data.  `log` and `score` are not in the code: `log` records the calls
that were made, and its length bounds loops in the model of instruments; `score` records the calls with
the times at which they were made. -/
structure Band (υ : Type) where
  world : TWorld := {}
  log : List WOp := []
  ids : List Nat := []
  score : List (Int × List WOp) := []
  user : υ

/-- What happens when clock `k` ticks at a time: the next time, the data of the program, and the calls
that are made.  All tracks and instruments can be looked at. -/
abbrev Program (υ : Type) := Nat → Int → υ → TWorld → Int × υ × List WOp

/-- The unit of a track. -/
def coreOf {α : Type} : List Nat → List α → Nat → Option α
  | x :: xs, c :: cs, y => if y = x then some c else coreOf xs cs y
  | _, _, _ => none

/-- Tracks and instruments with their units. -/
def TWorld.load (s : TWorld) (ids : List Nat) (cs : List UCore) : TWorld :=
  { s with tracks := fun x => (s.tracks x).map fun t =>
      match coreOf ids cs x with
      | some c => { t with unit := { toUCore := c } }
      | none => t }

/-- The units of tracks. -/
def TWorld.cores (s : TWorld) : List Nat → List UCore → List UCore
  | x :: xs, c :: cs => (match s.tracks x with | some t => t.unit.toUCore | none => c) :: s.cores xs cs
  | _, cs => cs

/-- Tracks and instruments without these units. -/
def TWorld.strip (s : TWorld) (ids : List Nat) : TWorld :=
  { s with tracks := fun x => (s.tracks x).map fun t => if x ∈ ids then { t with unit := {} } else t }

/-- Calls on tracks and instruments. -/
def Band.perform {υ : Type} (b : Band υ) (cs : List UCore) (ops : List WOp) : C (Band υ × List UCore) := do
  let s ← (b.world.load b.ids cs).run (b.log.length + ops.length) ops
  return ({ b with world := s.strip b.ids, log := b.log ++ ops }, s.cores b.ids cs)

/-- `BKTrackUpdateUnit` (BKTrack.c 177–193) for one track, as called in `BKTrackRun`, BKTrack.c 446–451. -/
def TWorld.flushTrack (s : TWorld) (x : Nat) : C TWorld :=
  match s.tracks x with
  | none => .ok s
  | some t => do
    let t ← t.updateUnit x s.iw
    return { s with tracks := upd s.tracks x (some t) }

/-- The same for all tracks that are attached. -/
def Band.flush {υ : Type} (b : Band υ) (cs : List UCore) : C (Band υ × List UCore) := do
  let s ← b.ids.foldlM TWorld.flushTrack (b.world.load b.ids cs)
  return ({ b with world := s.strip b.ids }, s.cores b.ids cs)

/-- What is called while a context with tracks runs. -/
def Program.cb {υ : Type} (p : Program υ) : ClockCb (Band υ) where
  tick k t b cs :=
    let r := p k t b.user (b.world.load b.ids cs)
    do let q ← ({ b with user := r.2.1, score := b.score ++ [(t, r.2.2)] } : Band υ).perform cs r.2.2
       return (r.1, q.1, q.2)
  flush b cs := b.flush cs

/-- Calls between those that render.  A context has then been rendered up to its current time. -/
def Ctx.perform {υ : Type} (x : Ctx (Band υ)) (ops : List WOp) : C (Ctx (Band υ)) := do
  let r ← x.user.perform (x.units.map (·.toUCore)) ops
  return { x with user := { r.1 with score := r.1.score ++ [(x.currentTime, ops)] }, units := setCores x.units r.2 }

/-- `BKTrackAttach`, BKTrack.c 510–529, and `BKUnitAttach`, BKUnit.c 260–283: the unit comes last. -/
def Ctx.attachTrack {υ : Type} (x : Ctx (Band υ)) (id : Nat) : C (Ctx (Band υ)) :=
  match x.user.world.tracks id with
  | none => .ok x
  | some t => do
    let r ← t.attach id x.user.world.iw x.sampleRate x.chans.length x.deltaTime
    match r.1 with
    | .ok => return { x with
        units := x.units ++ [{ toUCore := r.2.unit.toUCore, time := x.deltaTime }]
        user := { x.user with
          world := { x.user.world with tracks := upd x.user.world.tracks id (some { r.2 with unit := {} }) }
          ids := x.user.ids ++ [id]
          score := x.user.score ++ [(x.currentTime, [.track id (.attach x.sampleRate x.chans.length 0)])]
          log := x.user.log ++ [.track id (.attach x.sampleRate x.chans.length x.deltaTime)] } }
    | _ => return x

/-- The units without the unit of track `y`. -/
def dropUnit {α : Type} : List Nat → List α → Nat → List α
  | x :: xs, c :: cs, y => if y = x then cs else c :: dropUnit xs cs y
  | _, cs, _ => cs

/-- `BKTrackDetach`, BKTrack.c 531–537, and `BKUnitDetach`, BKUnit.c 285–309, for a track that is
attached: the unit is taken out of the list; the other units stay in their order. -/
def Ctx.detachTrack {υ : Type} (x : Ctx (Band υ)) (id : Nat) : Ctx (Band υ) :=
  match x.user.world.tracks id, coreOf x.user.ids x.units id with
  | some t, some u => { x with
      units := dropUnit x.user.ids x.units id
      user := { x.user with
        world := { x.user.world with tracks := upd x.user.world.tracks id (some ({ t with unit := u } : Track).detach) }
        ids := x.user.ids.erase id
        score := x.user.score ++ [(x.currentTime, [.track id .detach])]
        log := x.user.log ++ [.track id .detach] } }
  | _, _ => x

end BK

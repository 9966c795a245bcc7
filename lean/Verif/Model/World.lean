import Verif.Model.Links
/-!
Which track, unit, divider and clock is attached where, BKTrack.c 510–537, BKContext.c 103–127 and
481–516.

A track `n` has the unit `n` and the divider `n` (the members `unit` and `divider` of its struct).
Context `c` is the owner `c` of units, clocks and of the dividers in its group `effectDividers`; its
master clock is the clock `c`, so other clocks have numbers that are not those of contexts.  Not
modelled here: the other group of dividers, and that a context is zeroed and possibly freed after its
disposal; nothing is attached to it afterwards.
-/
namespace BK

/-- All links. -/
structure World where
  units : Links := {}
  clocks : Links := {}
  dividers : Links := {}

/-- A pointer to a clock as `beforeClock`, BKContext.c 505. -/
def Before.ofPtr : Option Nat → Before
  | some b => .clock b
  | none => .null

/-- `BKContextAttachDivider` with `BK_CLOCK_TYPE_EFFECT`, BKContext.c 481–516; the period of the
master clock is positive.  The return values of both attaches are not used. -/
def World.attachDivider (w : World) (n c : Nat) : C World := do
  let d := (w.dividers.dividerAttach n c).2
  let r ← w.clocks.clockAttach c c (Before.ofPtr (w.clocks.first c))
  return { w with dividers := d, clocks := r.2 }

/-- `BKTrackAttach`, BKTrack.c 510–529. -/
def World.trackAttach (w : World) (n c : Nat) : C (AttachRet × World) :=
  let r := w.units.unitAttach n c
  if r.1 = .ok then do
    let w ← ({ w with units := r.2 } : World).attachDivider n c
    return (.ok, w)
  else .ok (r.1, w)

/-- `BKTrackDetach`, BKTrack.c 531–537. -/
def World.trackDetach (w : World) (n : Nat) : World :=
  { w with dividers := w.dividers.detach n, units := w.units.detach n }

/-- `BKContextDisposeObject`, BKContext.c 103–127. -/
def World.contextDispose (w : World) (fuel : Nat) (c : Nat) : C World := do
  let u ← w.units.detachAll fuel (w.units.first c)
  let k ← w.clocks.detachAll fuel (w.clocks.first c)
  return { w with units := u, clocks := k.detach c }

end BK

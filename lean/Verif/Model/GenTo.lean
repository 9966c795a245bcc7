import Verif.Model.Context
/-!
Generating to a time, `/repo/src/BKContext.c` 301–333.
-/
namespace BK

/-- One pass of the loop of `BKContextGenerateToTime`, BKContext.c 307–331, without `write`: the context,
and what was read if something was. -/
def Ctx.toStep {σ : Type} (chk : Bool) (cb : ClockCb σ) (endTime : Int) (x : Ctx σ) :
    C (Ctx σ × Option (Int × List (Int × Int))) := do
  let delta ← T64.sub endTime x.currentTime
  let x ← x.endAt chk cb (limitStep delta)
  let size ← x.size
  if size ≥ 1024 ∨ T64.isGreaterEqual x.currentTime endTime then do
    let r ← x.read chk 1024
    return (r.2.1, some (r.1, r.2.2))
  else return (x, none)

/-- The loop of `BKContextGenerateToTime`, BKContext.c 307–331: the returned value (`none` for
`BK_INVALID_RETURN_VALUE`), the context, and all blocks given to `write` with their sizes.  `write` says
for which block and size it returns 0.  The first argument bounds the number of passes. -/
def Ctx.toLoop {σ : Type} (chk : Bool) (cb : ClockCb σ) (endTime : Int) (write : Nat → Int → List (Int × Int) → Bool) :
    Nat → Int → List (Int × List (Int × Int)) → Ctx σ → C (Option Int × Ctx σ × List (Int × List (Int × Int)))
  | 0, num, out, x => if T64.isLess x.currentTime endTime then .error .endless else .ok (some num, x, out)
  | n + 1, num, out, x =>
    if T64.isLess x.currentTime endTime then do
      let r ← x.toStep chk cb endTime
      match r.2 with
      | none => Ctx.toLoop chk cb endTime write n num out r.1
      | some b => do
        let num ← i32 (num + b.1)
        if write out.length b.1 b.2 then Ctx.toLoop chk cb endTime write n num (out ++ [b]) r.1
        else return (none, r.1, out ++ [b])
    else .ok (some num, x, out)

/-- `BKContextGenerateToTime`, BKContext.c 301–333, with at most `fuel` passes. -/
def Ctx.generateTo {σ : Type} (chk : Bool) (cb : ClockCb σ) (write : Nat → Int → List (Int × Int) → Bool) (fuel : Nat) (x : Ctx σ)
    (endTime : Int) : C (Option Int × Ctx σ × List (Int × List (Int × Int))) :=
  Ctx.toLoop chk cb endTime write fuel 0 [] x

end BK

import Verif.Model.Object
/-!
Counting over the calls made on objects and their results.
-/
namespace BK

/-- The class with which a call successfully made object `a`. -/
def startOf (a : Addr) : OCall × ORet × Option Addr → Option Nat
  | (.init _ c _, .ok, some b) => if b = a then c else none
  | (.alloc _ c _, .ok, some b) => if b = a then c else none
  | _ => none

/-- Is it a call that disposes `a`? -/
def endsOf (a : Addr) : OCall × ORet × Option Addr → Bool
  | (.dispose (some b), _) => decide (b = a)
  | _ => false

/-- How often `a` has been made with class `c`. -/
def starts (a : Addr) (c : Nat) (tr : List (OCall × ORet × Option Addr)) : Nat :=
  tr.countP (fun e => startOf a e = some c)

/-- Class of `a` if it exists: it has been made and not been disposed since. -/
def livesAfter (a : Addr) (l : Option Nat) (tr : List (OCall × ORet × Option Addr)) : Option Nat :=
  tr.foldl (fun l e => if endsOf a e then none else
    match startOf a e with | some c => some c | none => l) l

/-- How often `a` has been made again while it existed with class `c`. -/
def remade (a : Addr) (c : Nat) (l : Option Nat) : List (OCall × ORet × Option Addr) → Nat
  | [] => 0
  | e :: tr => (if l = some c ∧ (startOf a e).isSome then 1 else 0) + remade a c (livesAfter a l [e]) tr

/-- How often the dispose function of class `c` was called for `a`. -/
def hooks (a : Addr) (c : Nat) (log : List OEvent) : Nat := log.count (.hook a c)

/-- How often `a` has been freed. -/
def frees (a : Addr) (log : List OEvent) : Nat := log.count (.free a)

/-- Is `a` the result of an allocation, and has it never been passed to init? -/
def allocatedOnly (a : Addr) (tr : List (OCall × ORet × Option Addr)) : Bool :=
  tr.any (fun e => match e with | (.alloc _ _ _, .ok, b) => decide (b = some a) | _ => false) &&
  tr.all (fun e => match e with | (.init (some b) _ _, _) => decide (b ≠ a) | _ => true)

end BK

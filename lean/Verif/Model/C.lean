/-!
Integer arithmetic of C as used by BlipKit, with undefined behaviour as an
explicit outcome.

Types come from `/repo/src/BKBase.h`: `BKInt` is `int32_t`, `BKUInt`, `BKFUInt20`
and `BKEnum` are 32-bit unsigned, `BKFrame` is `int16_t`, `BKTime` is `int64_t` on
64-bit targets.  All of them are modelled by `Int` (or `Nat` for indices).
-/
namespace BK

/-- The ways in which a C execution can go wrong. -/
inductive Fault where
  | overflow      -- signed overflow or out-of-range signed shift
  | divZero
  | oob           -- array access out of bounds
  | null          -- NULL dereference
  | useAfterFree
  | badFree
  | endless       -- loop that never terminates
  deriving DecidableEq, Repr

/-- Result of a C function: a value, or undefined behaviour. -/
abbrev C := Except Fault

deriving instance DecidableEq for Except

/-- Representable as `int32_t`. -/
def InI32 (x : Int) : Prop := -2147483648 ≤ x ∧ x ≤ 2147483647
/-- Representable as `uint32_t`. -/
def InU32 (x : Int) : Prop := 0 ≤ x ∧ x ≤ 4294967295
/-- Representable as `int16_t`. -/
def InI16 (x : Int) : Prop := -32768 ≤ x ∧ x ≤ 32767
/-- Representable as `int64_t`. -/
def InI64 (x : Int) : Prop := -9223372036854775808 ≤ x ∧ x ≤ 9223372036854775807

instance (x : Int) : Decidable (InI32 x) := by unfold InI32; infer_instance
instance (x : Int) : Decidable (InU32 x) := by unfold InU32; infer_instance
instance (x : Int) : Decidable (InI16 x) := by unfold InI16; infer_instance
instance (x : Int) : Decidable (InI64 x) := by unfold InI64; infer_instance

/-- Result of a signed 32-bit operation whose exact value is `x`. -/
def i32 (x : Int) : C Int := if InI32 x then .ok x else .error .overflow
/-- Result of a signed 64-bit operation whose exact value is `x`. -/
def i64 (x : Int) : C Int := if InI64 x then .ok x else .error .overflow

/-- Conversion to `uint32_t`, and the value of unsigned 32-bit arithmetic. -/
def wrapU32 (x : Int) : Int := x % 4294967296
/-- Conversion to `int32_t` (two's complement). -/
def wrapI32 (x : Int) : Int := (x + 2147483648) % 4294967296 - 2147483648
/-- Conversion to `int16_t` (two's complement). -/
def wrapI16 (x : Int) : Int := (x + 32768) % 65536 - 32768
/-- Conversion to `uint8_t`. -/
def wrapU8 (x : Int) : Int := x % 256
/-- Conversion to `uint16_t`. -/
def wrapU16 (x : Int) : Int := x % 65536

/-- `BKMin`, BKBase.h. -/
def cmin (a b : Int) : Int := if a < b then a else b
/-- `BKMax`, BKBase.h. -/
def cmax (a b : Int) : Int := if a > b then a else b
/-- `BKClamp`, BKBase.h: `a < l ? l : (a > h ? h : a)`. -/
def cclamp (a l h : Int) : Int := if a < l then l else if a > h then h else a

/-- Bounds-checked array read. -/
def rd {α} (a : List α) (i : Int) : C α :=
  if 0 ≤ i then
    match a[i.toNat]? with
    | some x => .ok x
    | none => .error .oob
  else .error .oob

/-- Bounds-checked array write. -/
def wr {α} (a : List α) (i : Int) (v : α) : C (List α) :=
  if 0 ≤ i ∧ i.toNat < a.length then .ok (a.set i.toNat v) else .error .oob

/-- The fixed-point unit `1 << BK_FINT20_SHIFT` of BKBase.h. -/
notation "U20" => (1048576 : Int)

theorem i32_ok {x : Int} (h1 : -2147483648 ≤ x) (h2 : x ≤ 2147483647) : i32 x = .ok x := by
  simp [i32, InI32, h1, h2]

theorem i64_ok {x : Int} (h1 : -9223372036854775808 ≤ x) (h2 : x ≤ 9223372036854775807) :
    i64 x = .ok x := by
  simp [i64, InI64, h1, h2]

@[simp] theorem ok_bind {α β} (x : α) (f : α → C β) : ((Except.ok x : C α) >>= f) = f x := id rfl
@[simp] theorem error_bind {α β} (e : Fault) (f : α → C β) :
    ((Except.error e : C α) >>= f) = .error e := id rfl
@[simp] theorem pure_eq_ok {α} (x : α) : (pure x : C α) = .ok x := id rfl

theorem bind_ok_iff {α β} {x : C α} {f : α → C β} {b : β} :
    (x >>= f) = .ok b ↔ ∃ a, x = .ok a ∧ f a = .ok b := by
  cases x with
  | error e => simp
  | ok a => simp

theorem i32_eq_ok_iff {x y : Int} : i32 x = .ok y ↔ InI32 x ∧ y = x := by
  unfold i32; split <;> simp_all [eq_comm]

end BK

import Verif.Model.C
/-!
`/repo/src/BKBase.c`: names of status codes.
-/
namespace BK

/-- BKBase.c 28–43.  Designated initialisers start at index 1, so index 0 is NULL
(`none`). -/
def statusNames : List (Option String) :=
  [none, "Allocation error", "Invalid argument", "Invalid value", "Invalid state",
   "Invalid number of channels", "Invalid number of frames", "Invalid number of bits",
   "Invalid return value", "File error", "File not readable", "File not writable",
   "File not seekable", "Other error"]

/-- `BK_RETURN_TYPE` (BKBase.h: `-7 << 12`) converted to `unsigned`. -/
def returnType : Nat := 0xFFFF9000
/-- `BK_OTHER_ERROR` converted to `unsigned`. -/
def otherError : Nat := 0xFFFF900D

/-- BKBase.c 47–56.  `status` is `unsigned`; the index is computed modulo 2^32; the
result `none` is a NULL pointer. -/
def statusGetName (status : Nat) : C (Option String) :=
  if (status &&& returnType) ≠ 0 ∧ status ≤ otherError then
    rd statusNames (wrapU32 ((status : Int) - returnType))
  else
    .ok (some "Unknown status")

end BK

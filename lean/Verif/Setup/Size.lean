/-!
# Model of the sizes of files as text

`/repo/nephosem/utils.py:108-118`.  The size in bytes, which `os.path.getsize` gives, is a parameter.  The quotients by
1024 are exact; in Python they are floats, which are exact for sizes below 2^53 bytes.
-/

namespace Verif.Setup

/-- The number of `'{:.1f}'.format(n / d)`, in tenths: the nearest one, and the even one of two that are equally near. -/
def tenths (n d : Nat) : Nat :=
  let q := 10 * n / d
  let r := 10 * n % d
  if 2 * r < d then q else if d < 2 * r then q + 1 else if q % 2 = 0 then q else q + 1

/-- The loop of `sizeof_fmt`: `utils.py:114-118`; `d` is what the number has been divided by so far. -/
def sizeGo (n : Nat) : List String → Nat → Nat × String
  | [], d => (tenths n d, "Y")
  | u :: us, d => if n < 1024 * d then (tenths n d, u) else sizeGo n us (1024 * d)

/-- The units: `utils.py:114`. -/
def sizeUnits : List String := ["", "K", "M", "G", "T", "P", "E", "Z"]

/-- `'{:.1f}'` and `'{:3.1f}'`, which never needs to fill up as there are at least three characters. -/
def oneDecimal (t : Nat) : String := toString (t / 10) ++ "." ++ toString (t % 10)

/-- `sizeof_fmt`: `utils.py:113-118`, for natural numbers. -/
def sizeofFmt (n : Nat) (suffix : String := "B") : String :=
  oneDecimal (sizeGo n sizeUnits 1).1 ++ (sizeGo n sizeUnits 1).2 ++ suffix

end Verif.Setup

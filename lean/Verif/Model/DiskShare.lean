import Verif.Model.System
/-!
# Model of the usage of a disk, with the arithmetic of `float32`
-/
namespace Saratoga

/-- `n / d` rounded to the nearest whole number, halves to the even one (IEEE 754, the rounding of the conversions and of the
division at sarsys/sys_linux.go:49-51). -/
def roundEven (n d : Nat) : Nat :=
  if 2 * (n % d) < d ∨ (2 * (n % d) = d ∧ n / d % 2 = 0) then n / d else n / d + 1

/-- `n / d` rounded to 24 significant bits, as `float32` is (IEEE 754, used at sarsys/sys_linux.go:49-51). Simplified: the
exponent is not bounded from above and results are whole numbers; with numbers of 64 bits no result is too large, and
`DiskUsage.usage` chooses the unit such that none is too small. -/
def round24 (n d : Nat) : Nat :=
  let ulp := 2 ^ ((n / d).log2 + 1 - 24)
  roundEven n (d * ulp) * ulp

/-- What `Usage` answers: a `float32` that is a number is given in units of 2^-88 (sarsys/sys_linux.go:49-51). -/
inductive Share where
  | nan
  | inf
  | units (n : Nat)
deriving DecidableEq, Repr

/-- `Usage` (sarsys/sys_linux.go:49-51, sarsys/sys_darwin.go:49-51, sarsys/sys_windows.go:61-63): both numbers are made
`float32` and divided. -/
def DiskUsage.usage (u : DiskUsage) : Share :=
  let used := round24 u.used.toNat 1
  let size := round24 u.size.toNat 1
  if size = 0 then (if used = 0 then .nan else .inf)
  else .units (round24 (used * 2 ^ 88) size)

end Saratoga

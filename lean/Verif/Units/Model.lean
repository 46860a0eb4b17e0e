import Mathlib.Algebra.Order.Field.Basic

/-!
# Units and memory

Model of `PrettyUnits` (common/PrettyUnits.cc) and `AvailableMemory` (common/Memory.cc). Numbers are in an ordered field; the
rounding to a number of digits is left out.
-/

namespace DP3.Units

variable {K : Type} [Field K] [LinearOrder K]

/-- common/PrettyUnits.cc:18: the prefixes. -/
def prefixes : List Char := "yzafpnum kMGTPEZY".toList

/-- common/PrettyUnits.cc:24-26: the loop, with the number of prefixes that are left. -/
def scale : Nat → K → Nat → K × Nat
  | 0, v, i => (v, i)
  | n + 1, v, i => if 1999 / 2 ≤ |v| then scale n (v / 1000) (i + 1) else (v, i)

/-- common/PrettyUnits.cc:21-26: the number that is printed, and the index of its prefix. -/
def pretty (value : K) : K × Nat :=
  if value = 0 then (0, 8) else scale (prefixes.length - 1) (value * 1000 ^ 8) 0

/-- The number of bytes in a GB, common/Memory.cc:29. -/
def gb : K := 1024 * 1024 * 1024

/-- common/Memory.cc:19-54 AvailableMemory; `sys` is the memory of the system. `none`: an exception. -/
def availableMemory (sys memory percentage : K) (clip : Bool) : Option K :=
  if percentage < 0 ∨ 100 < percentage then none
  else
    let memMax := if clip then min (memory * gb) sys else memory * gb
    if 0 < percentage then
      let avail := percentage * sys / 100
      some (if 0 < memMax ∧ memMax < avail then memMax else avail)
    else if memory ≤ 0 then some (sys - min (sys / 2) (2 * gb))
    else some memMax

end DP3.Units

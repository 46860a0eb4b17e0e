/-!
# The report of a flag counter

Models what base/FlagCounter.cc shows and saves: the table per baseline with its pages of 15 antennas, the list of fully flagged
baselines, percentages, warnings and the names of the tables. Counts are natural numbers. The width of columns and the layout are not
modelled. Text is a list of characters.
-/

namespace DP3.FlagReport

/-- A matrix or vector of counts, FlagCounter.cc:160-163, as function of the antennas. -/
abbrev Matrix := Nat → Nat → Nat

/-- `m(a, b) += n`, FlagCounter.cc:165. -/
def Matrix.add (m : Matrix) (a b n : Nat) : Matrix := fun x y => if x = a ∧ y = b then m x y + n else m x y

/-- A baseline: its antennas and the number of flagged visibilities. -/
structure Baseline where
  ant1 : Nat
  ant2 : Nat
  count : Nat

/-- The counts of `showBaseline`: countBL, nusedBL, countAnt and nUsedAnt, FlagCounter.cc:160-163. -/
structure Counts where
  count : Matrix
  used : Matrix
  countAnt : Nat → Nat
  usedAnt : Nat → Nat

/-- `v[a] += n`, FlagCounter.cc:167-168. -/
def bump (v : Nat → Nat) (a n : Nat) : Nat → Nat := fun x => if x = a then v x + n else v x

/-- One round of the loop over baselines, FlagCounter.cc:164-175. -/
def countStep (c : Counts) (b : Baseline) : Counts :=
  let c1 : Counts := ⟨c.count.add b.ant1 b.ant2 b.count, c.used.add b.ant1 b.ant2 1, bump c.countAnt b.ant1 b.count,
    bump c.usedAnt b.ant1 1⟩
  if b.ant1 ≠ b.ant2 then
    ⟨c1.count.add b.ant2 b.ant1 b.count, c1.used.add b.ant2 b.ant1 1, bump c1.countAnt b.ant2 b.count, bump c1.usedAnt b.ant2 1⟩
  else c1

/-- All counts, FlagCounter.cc:160-175. -/
def counts (bls : List Baseline) : Counts :=
  bls.foldl countStep ⟨fun _ _ => 0, fun _ _ => 0, fun _ => 0, fun _ => 0⟩

/-- The number of antennas, FlagCounter.cc:153-158. -/
def nAntennas (bls : List Baseline) : Nat :=
  bls.foldl (fun m b => max m (1 + max b.ant1 b.ant2)) 0

/-- Which antennas are used, FlagCounter.cc:178-179. -/
def usedList (bls : List Baseline) : List Bool :=
  (List.range (nAntennas bls)).map fun (a : Nat) => decide (0 < (counts bls).usedAnt a)

/-- The number of used antennas, FlagCounter.cc:177-182. -/
def nUsed (used : List Bool) : Nat := used.foldl (fun n b => if b then n + 1 else n) 0

/-- The loops that pass `n` used antennas, FlagCounter.cc:195-201 (and 207-228, 234-242, which pass the same ones): the antennas and the
next position. The list starts at position `pos`; reading past its end is `none`. -/
def scan : List Bool → Nat → Nat → Option (List Nat × Nat)
  | _, pos, 0 => some ([], pos)
  | [], _, _ + 1 => none
  | b :: l, pos, n + 1 =>
    if b then (scan l (pos + 1) n).map fun r => (pos :: r.1, r.2) else scan l (pos + 1) (n + 1)

/-- The loop over lines, FlagCounter.cc:187-244, from line `i` and antenna `ant`: the antennas of each page. The first argument is the
number of lines that are left. -/
def pageLoop (used : List Bool) (nrused : Nat) : Nat → Nat → Nat → Option (List (List Nat))
  | 0, _, _ => some []
  | left + 1, i, ant =>
    match scan (used.drop ant) ant (min 15 (nrused - i * 15)) with
    | none => none
    | some (page, next) => (pageLoop used nrused left (i + 1) next).map fun r => page :: r

/-- The pages, FlagCounter.cc:183-188. -/
def pages (used : List Bool) : Option (List (List Nat)) :=
  pageLoop used (nUsed used) ((nUsed used + 14) / 15) 0 0

/-- `int(100.0 * count / total + 0.5)`, FlagCounter.cc:212-213, 237-238, 293, 337; `none` when the total is zero, for which the
conversion to an integer is undefined. -/
def percentage (count total : Nat) : Option Nat :=
  if total = 0 then none else some ((200 * count + total) / (2 * total))

/-- A cell of the table: `none` for an empty one, FlagCounter.cc:210-224. -/
def cell (c : Counts) (nPoints k ia : Nat) : Option (Option Nat) :=
  if 0 < c.used k ia then some (percentage (c.count k ia) (c.used k ia * nPoints)) else none

/-- Whether a pair is added to the list of fully flagged baselines, FlagCounter.cc:210, 217-220. -/
def isFull (c : Counts) (nPoints k ia : Nat) : Bool :=
  decide (0 < c.used k ia ∧ k ≤ ia ∧ c.count k ia = c.used k ia * nPoints)

/-- The pairs of antennas of the cells of a page in order, FlagCounter.cc:204-209. -/
def pageCells (used : List Bool) (page : List Nat) : List (Nat × Nat) :=
  ((List.range used.length).filter fun (k : Nat) => used.getD k false).flatMap fun k => page.map fun ia => (k, ia)

/-- The pairs of antennas of all cells of the table in order, FlagCounter.cc:187-244. -/
def tableCells (bls : List Baseline) : Option (List (Nat × Nat)) :=
  (pages (usedList bls)).map fun ps => ps.flatMap (pageCells (usedList bls))

/-- The fully flagged baselines, FlagCounter.cc:216-221, 258-265. -/
def fullyFlagged (bls : List Baseline) (nPoints : Nat) : Option (List (Nat × Nat)) :=
  (tableCells bls).map fun cs => cs.filter fun p => isFull (counts bls) nPoints p.1 p.2

/-- The channels for which there is a warning, FlagCounter.cc:308-317; the setting warnperc is a natural number here. -/
def channelWarnings (warn : Nat) (channelCounts : List Nat) (nPoints : Nat) : List Nat :=
  if 0 < warn then
    (List.range channelCounts.length).filter fun (i : Nat) => decide (warn * nPoints ≤ 100 * channelCounts.getD i 0)
  else []

/-- The total of `showChannel`, FlagCounter.cc:273, 292: the flagged visibilities in all channels. -/
def totalFlagged (channelCounts : List Nat) : Nat := channelCounts.foldl (fun n c => n + c) 0

/-- The text of a duration: a number and a unit, FlagCounter.cc:342-349, for a duration of `n` tenths of a second. -/
def writeDuration (tenths : Nat) : Nat × String := if tenths < 100 then (100 * tenths, "ms") else (tenths / 10, "s")

/-- `showPerc1`, FlagCounter.cc:351-356, of a value and total in tenths: the percentage in units of 0.1 and the duration in brackets. -/
def showPerc1 (value total : Nat) : Nat × (Nat × String) :=
  ((if total = 0 then 0 else (2000 * value + total) / (2 * total)), writeDuration value)

/-- The part of a name before the first dot, FlagCounter.cc:40-43, 54-57. -/
def beforeDot (s : List Char) : List Char := s.takeWhile fun c => c != '.'

/-- The part of a name after the last slash, FlagCounter.cc:45, 53. -/
def afterSlash (s : List Char) : List Char := (s.reverse.takeWhile fun c => c != '/').reverse

/-- The part of a name before the last slash, FlagCounter.cc:47-51; a dot when there is no slash. -/
def directory (s : List Char) : List Char :=
  if '/' ∈ s then (s.reverse.dropWhile fun c => c != '/').tail.reverse else ['.']

/-- `MakeSaveFilename`, FlagCounter.cc:36-59. -/
def saveFilename (path msName suffix : List Char) : List Char :=
  let p := if path = [] then directory msName else path
  p ++ ['/'] ++ beforeDot (afterSlash msName) ++ ['_'] ++ beforeDot suffix ++ ".flag".toList

end DP3.FlagReport

import Mathlib.Algebra.Ring.Defs
import Mathlib.Data.List.Basic

/-!
# The antenna configuration of AARTFAAC

Models the parser of aartfaac/AntennaConfig.h on the list of tokens of the file, the lookup of an array and the antenna positions
that follow from it. The division of lines into tokens (AntennaConfig.h:163-194) is not modelled: the state is the list of tokens
that starts with the current one, and is empty at the end of the file. Numbers are elements of a ring.
-/

namespace DP3.Aartfaac

/-- Tokens: a word starts with a letter; a number has the value as integer (`atoi`) and as floating point number (`atof`), and
`digit` tells that it starts with a digit and not with a sign or a point. The letter "x" and brackets are separate. -/
inductive Tok (K : Type)
  | word (s : String)
  | times
  | open
  | close
  | num (digit : Bool) (i : Int) (v : K)
  deriving DecidableEq

/-- How a function ends that does not return. -/
inductive Fault
  | refused
  | ub
  deriving DecidableEq, Repr

section
variable {K : Type} [CommRing K]

/-- `std::atoi` of a token, which is zero for text that is no number, AntennaConfig.h:197, 207. -/
def Tok.int : Tok K → Int
  | .num _ i _ => i
  | _ => 0

/-- `std::atof` of a token, AntennaConfig.h:224. -/
def Tok.value : Tok K → K
  | .num _ _ v => v
  | _ => 0

/-- The text of a token that starts with a letter, AntennaConfig.h:233, 237: "x" is such a token. -/
def Tok.alpha : Tok K → Option String
  | .word s => some s
  | .times => some "x"
  | _ => none

/-- `token_[0] >= '0' && token_[0] <= '9'`, AntennaConfig.h:246. -/
def Tok.isDigit : Tok K → Bool
  | .num d _ _ => d
  | _ => false

/-- `atoi` of the current token, which is empty at the end of the file, AntennaConfig.h:197. -/
def intHead (toks : List (Tok K)) : Int := (toks.head?.map Tok.int).getD 0

/-- `token_ == "["`, AntennaConfig.h:212. -/
def Tok.isOpen : Tok K → Bool
  | .open => true
  | _ => false

/-- The loop of `ReadDimensions`, AntennaConfig.h:198-213; the second argument are the tokens after the current one. The tokens that
are returned start with "[". -/
def dimensionLoop (dims : List Int) : List (Tok K) → Except Fault (List Int × List (Tok K))
  | [] => .error .refused
  | .times :: t :: rest =>
    if t.isOpen then .ok (dims ++ [t.int], t :: rest) else dimensionLoop (dims ++ [t.int]) rest
  | .open :: rest => .ok (dims, .open :: rest)
  | _ => .error .refused

/-- `ReadDimensions`, AntennaConfig.h:196-214. -/
def readDimensions (toks : List (Tok K)) : Except Fault (List Int × List (Tok K)) :=
  dimensionLoop [intHead toks] toks.tail

/-- The loop of `ReadData` and the step to "]", AntennaConfig.h:220-227. -/
def readValues : Nat → List (Tok K) → Except Fault (List K × List (Tok K))
  | 0, toks => .ok ([], toks.tail)
  | n + 1, toks =>
    match toks.tail with
    | [] => .error .refused
    | t :: rest => (readValues n (t :: rest)).map fun r => (t.value :: r.1, r.2)

/-- `ReadData`, AntennaConfig.h:216-228. A vector of negative size cannot be made (line 219); overflow of the product is not
modelled. -/
def readData (dims : List Int) (toks : List (Tok K)) : Except Fault (List K × List (Tok K)) :=
  let count := dims.foldl (fun a b => a * b) 1
  if count < 0 then .error .refused else readValues count.toNat toks

/-- The sum of offsets and positions, AntennaConfig.h:251-253: a modulus of zero is undefined. -/
def addOffsets (data1 data2 : List K) : Except Fault (List K) :=
  if data2 = [] then .ok []
  else if data1 = [] then .error .ub
  else .ok (data2.mapIdx fun i v => v + data1.getD (i % data1.length) 0)

/-- The second part of `ReadArray`, AntennaConfig.h:246-257; the argument are the tokens that start with "]". -/
def readSecond (data1 : List K) (toks : List (Tok K)) : Except Fault (List K × List (Tok K)) :=
  match toks.tail with
  | [] => .ok (data1, [])
  | t :: rest =>
    if t.isDigit then do
      let (dims, toks1) ← readDimensions (t :: rest)
      let (data2, toks2) ← readData dims toks1
      let values ← addOffsets data1 data2
      .ok (values, toks2.tail)
    else .ok (data1, t :: rest)

/-- `ReadArray` after the name, AntennaConfig.h:235-257: the band, the values and the tokens that are left. -/
def readBody (toks : List (Tok K)) : Except Fault (String × List K × List (Tok K)) := do
  let (band, toks1) := match toks.head?.bind Tok.alpha with
    | some b => (b, toks.tail)
    | none => ("", toks)
  let (dims, toks2) ← readDimensions toks1
  let (data1, toks3) ← readData dims toks2
  let (values, toks4) ← readSecond data1 toks3
  .ok (band, values, toks4)

/-- The key of an array, AntennaConfig.h:128-132. -/
def arrayKey (name band : String) : String := if band = "" then name else band ++ "_" ++ name

/-- `ParseFile`, AntennaConfig.h:124-135, 233-234: the keys and values in the order of the file. The map keeps the first array of a
key (`std::map::insert`, line 133), which is what `getArray` finds. Each array takes at least one token; the first argument bounds
the number of arrays. -/
def parseLoop : Nat → List (Tok K) → Except Fault (List (String × List K))
  | 0, _ => .ok []
  | fuel + 1, toks =>
    match toks.head?.bind Tok.alpha with
    | none => .ok []
    | some name => do
      let (band, values, rest) ← readBody toks.tail
      let others ← parseLoop fuel rest
      .ok ((arrayKey name band, values) :: others)

/-- The constructor, AntennaConfig.h:59-61, 124-135. -/
def parseFile (toks : List (Tok K)) : Except Fault (List (String × List K)) := parseLoop (toks.length + 1) toks

/-- `GetArray`, AntennaConfig.h:136-138: for a key that is not there the end iterator is dereferenced. -/
def getArray (file : List (String × List K)) (key : String) : Except Fault (List K) :=
  match file.find? fun a => a.1 = key with
  | some a => .ok a.2
  | none => .error .ub

/-- The loop of `GetPositions` from an index, AntennaConfig.h:143-147; the argument are the values from that index. -/
def positionLoop : List K → Except Fault (List (K × K × K))
  | [] => .ok []
  | [_] => .error .ub
  | [_, _] => .error .ub
  | x :: y :: z :: rest =>
    match rest with
    | _ :: _ :: _ :: more => (positionLoop more).map fun l => (x, y, z) :: l
    | _ => .ok [(x, y, z)]

/-- `GetPositions`, AntennaConfig.h:139-149. -/
def getPositions (file : List (String × List K)) (key : String) : Except Fault (List (K × K × K)) := do
  positionLoop (← getArray file key)

/-- `GetAxes`, AntennaConfig.h:151-161. -/
def getAxes (file : List (String × List K)) (key : String) : Except Fault (List K) := do
  let arr ← getArray file key
  if arr.length ≠ 9 then .error .refused else .ok arr

/-- `GetArrayFromMode`, AntennaConfig.h:100-115, with the numbers of base/RcuMode.h:26-34. -/
def getArrayFromMode (file : List (String × List K)) (mode : Nat) : Except Fault (List (K × K × K)) :=
  if mode = 1 ∨ mode = 2 ∨ mode = 3 ∨ mode = 4 then getPositions file "LBA"
  else if mode = 5 ∨ mode = 6 ∨ mode = 7 then getPositions file "HBA"
  else .error .refused

/-- The positions of the antennas in the meta data: the mode is checked by `FromNumber` (base/RcuMode.h:85-91) and `Bandwidth`
(base/RcuMode.h:93-108, which throws for mode 0, aartfaac/File.h:47); their number has to be that of the header
(steps/AartfaacReader.cc:77, 92-93, 111-112 and base/DPInfo.cc:258-260). -/
def antennaPositions (file : List (String × List K)) (mode receivers : Nat) : Except Fault (List (K × K × K)) :=
  if mode = 0 ∨ 7 < mode then .error .refused
  else do
    let p ← getArrayFromMode file mode
    if p.length ≠ receivers then .error .refused else .ok p

end

end DP3.Aartfaac

import Verif.ParamValue.Model

/-!
# Parameter sets

Model of `common/ParameterSetImpl.cc`: a sorted map from keys to values, the keys asked for, and the
reading and writing of text. Keys are texts of ASCII characters. A `ParameterValue` is the (trimmed)
text it holds. The mutex is not modelled: each operation is one step.
-/

namespace DP3.ParamSet

open DP3.StringTools DP3.ParamValue

/-- common/StringTools.h:46 Compare::Mode. -/
inductive Mode where
  | normal
  | nocase
  deriving DecidableEq

/-- `toupper` on a character code. -/
def upper (n : Nat) : Nat := if 97 ≤ n ∧ n ≤ 122 then n - 32 else n

/-- `boost::to_lower_copy` on a character code. -/
def lower (n : Nat) : Nat := if 65 ≤ n ∧ n ≤ 90 then n + 32 else n

/-- The character codes of a text. -/
def codes (k : List Char) : List Nat := k.map Char.toNat

/-- Lexicographic comparison of character codes with a key for each, common/StringTools.h:53-65. -/
def lexLt (f : Nat → Nat) : List Nat → List Nat → Bool
  | _, [] => false
  | [], _ :: _ => true
  | a :: as, b :: bs => if f a < f b then true else if f b < f a then false else lexLt f as bs

/-- common/StringTools.h:53-59 Compare::operator(). -/
def keyLt (m : Mode) (a b : List Nat) : Bool :=
  match m with
  | .normal => lexLt id a b
  | .nocase => lexLt upper a b

/-- The map (common/ParameterSetImpl.h:37 KVMap), in the order of its keys. -/
abbrev KV := List (List Char × List Char)

/-- `std::map::find`: neither key comes before the other. -/
def find (m : Mode) (k : List Char) : KV → Option (List Char × List Char)
  | [] => none
  | e :: r =>
    if !keyLt m (codes e.1) (codes k) && !keyLt m (codes k) (codes e.1) then some e else find m k r

/-- `std::map::insert`: nothing happens when the key is there. -/
def insert (m : Mode) (k v : List Char) : KV → KV
  | [] => [(k, v)]
  | e :: r =>
    if keyLt m (codes k) (codes e.1) then (k, v) :: e :: r
    else if keyLt m (codes e.1) (codes k) then e :: insert m k v r
    else e :: r

/-- Assignment through `operator[]`: the key stays as it is when it is there,
common/ParameterSetImpl.cc:361-364 replaceUnlocked. -/
def replace (m : Mode) (k v : List Char) : KV → KV
  | [] => [(k, v)]
  | e :: r =>
    if keyLt m (codes k) (codes e.1) then (k, v) :: e :: r
    else if keyLt m (codes e.1) (codes k) then e :: replace m k v r
    else (e.1, v) :: r

/-- `std::map::erase` of a key. -/
def erase (m : Mode) (k : List Char) : KV → KV
  | [] => []
  | e :: r =>
    if !keyLt m (codes e.1) (codes k) && !keyLt m (codes k) (codes e.1) then r else e :: erase m k r

/-- The base key in lower case when cases do not matter, common/ParameterSetImpl.cc:74-75, 108-110. -/
def baseOf (m : Mode) (b : List Char) : List Nat :=
  match m with
  | .normal => codes b
  | .nocase => (codes b).map lower

/-- The test for a prefix, common/ParameterSetImpl.cc:82-85, 117-120. -/
def isMatch (m : Mode) (base : List Nat) (k : List Char) : Bool :=
  match m with
  | .normal => (codes k).take base.length == base
  | .nocase => ((codes k).map lower).take base.length == base

/-- The entries from `lower_bound` of the base up to the first that does not match,
common/ParameterSetImpl.cc:81-88. -/
def matching (m : Mode) (b : List Char) (s : KV) : KV :=
  (s.dropWhile fun e => keyLt m (codes e.1) (baseOf m b)).takeWhile fun e =>
    isMatch m (baseOf m b) e.1

/-- A parameter set. -/
structure PSet where
  mode : Mode
  map : KV
  /-- `itsAskedParms`, common/ParameterSetImpl.h:334. -/
  asked : List (List Char)
  deriving DecidableEq

/-- common/ParameterSetImpl.cc:69-97 makeSubset: the subset, and the set with the keys asked for. -/
def makeSubset (b pfx : List Char) (s : PSet) : PSet × PSet :=
  let es := matching s.mode b s.map
  (⟨s.mode, es.foldl (fun t e => insert s.mode (pfx ++ e.1.drop b.length) e.2 t) [], []⟩,
    { s with asked := es.foldl (fun a e => e.1 :: a) s.asked })

/-- common/ParameterSetImpl.cc:103-132 subtractSubset: the entries that are scanned are erased. -/
def subtractSubset (p : List Char) (s : PSet) : PSet :=
  { s with map := (s.map.takeWhile fun e => keyLt s.mode (codes e.1) (baseOf s.mode p)) ++
      (s.map.dropWhile fun e => keyLt s.mode (codes e.1) (baseOf s.mode p)).dropWhile fun e =>
        isMatch s.mode (baseOf s.mode p) e.1 }

/-- common/ParameterSetImpl.cc:159-177 adoptCollection. With `self` it is called with the set itself. -/
def adoptCollection (self : Bool) (t : KV) (pfx : List Char) (s : PSet) : PSet :=
  if !self then
    { s with map := t.foldl (fun m e => replace s.mode (pfx ++ e.1) e.2 m) s.map }
  else if pfx ≠ [] then
    { s with map := s.map.foldl (fun m e => replace s.mode (pfx ++ e.1) e.2 m) s.map }
  else s

/-- One command line argument, common/ParameterSetImpl.cc:183-188. -/
def adoptArgument (m : Mode) (t : KV) (arg : List Char) : KV :=
  match arg.dropWhile (· ≠ '=') with
  | [] => t
  | _ :: v => replace m (arg.takeWhile (· ≠ '=')) (trim v) t

/-- common/ParameterSetImpl.cc:179-190 adoptArguments. -/
def adoptArguments (args : List (List Char)) (s : PSet) : PSet :=
  { s with map := args.foldl (adoptArgument s.mode) s.map }

/-- common/ParameterSetImpl.cc:318-334 findKV: the value, and the set with the key asked for. -/
def findKV (k : List Char) (s : PSet) : Option (List Char) × PSet :=
  match find s.mode k s.map with
  | none => (none, s)
  | some e => (some e.2, { s with asked := k :: s.asked })

/-- common/ParameterSetImpl.cc:339-350 add: an exception when the key is there. -/
def add (k v : List Char) (s : PSet) : Except Err PSet :=
  match find s.mode k s.map with
  | none => .ok { s with map := insert s.mode k v s.map }
  | some _ => .error .throws

/-- common/ParameterSetImpl.cc:369-373 remove. -/
def remove (k : List Char) (s : PSet) : PSet := { s with map := erase s.mode k s.map }

/-- common/ParameterSetImpl.cc:648-657 unusedKeys. -/
def unusedKeys (s : PSet) : List (List Char) :=
  (s.map.map Prod.fst).filter fun k => !s.asked.contains k

/-! ## Text -/

/-- A character of a line; behind the end there is a NUL. -/
def at' (line : List Char) (i : Nat) : Char := (line[i]?).getD '\x00'

/-- common/StringTools.cc:61-67 lskipws on positions; the first argument is the number of iterations
left. -/
def lskipPos (line : List Char) : Nat → Nat → Nat
  | 0, st => st
  | n + 1, st => if isSpace (at' line st) then lskipPos line n (st + 1) else st

/-- common/StringTools.cc:69-75 rskipws on positions. -/
def rskipPos (line : List Char) (st : Nat) : Nat → Nat
  | 0 => 0
  | e + 1 => if st < e + 1 ∧ isSpace (at' line e) then rskipPos line st e else e + 1

/-- The position after the closing quote, common/StringTools.cc:505-511 skipQuoted. -/
def skipQuotedPos (line : List Char) (st : Nat) : Except Err Nat :=
  match findQuote (at' line st) (line.drop (st + 1)) with
  | none => .error .throws
  | some (a, _) => .ok (st + 1 + a.length)

/-- `line.substr(stval, nonbl - stval + 1)` in common/ParameterSetImpl.cc:263-264. The subtraction is
unsigned: when `nonbl` lies before `stval`, the count wraps around to a large number and the text goes on to the
end of the line. Lines are taken to be shorter than 2^31 characters, so that positions fit. -/
def keyText (line : List Char) (stval nonbl : Nat) : List Char :=
  if nonbl + 1 < stval then line.drop stval else (line.drop stval).take (nonbl + 1 - stval)

/-- The variables of common/ParameterSetImpl.cc:231-303 readStream: the map, and the key and the value
that are being read. -/
structure Reader where
  map : KV
  key : List Char
  value : List Char
  deriving DecidableEq

/-- common/ParameterSetImpl.cc:305-312 addMerge (without the warning). The key has just been erased,
so that adding it does not throw. -/
def addMerge (m : Mode) (k v : List Char) (t : KV) : KV := insert m k (trim v) (erase m k t)

/-- The equal sign, common/ParameterSetImpl.cc:256-268. -/
def takeKey (m : Mode) (pfx line : List Char) (stval nonbl : Nat) (r : Reader) : Except Err Reader :=
  let r1 := if r.key ≠ [] then { r with map := addMerge m r.key r.value r.map, value := [] } else r
  match getString (keyText line stval nonbl) with
  | .error e => .error e
  | .ok k => if k = [] then .error .throws else .ok { r1 with key := pfx ++ k }

/-- The loop of common/ParameterSetImpl.cc:249-275: the positions `end` and `stval` and the variables
afterwards. -/
def scanLine (m : Mode) (pfx line : List Char) :
    Nat → Nat → Nat → Nat → Nat → Reader → Except Err (Nat × Nat × Reader)
  | 0, _, _, _, _, _ => .error .fuel
  | fuel + 1, st, stop, nonbl, stval, r =>
    if st < stop then
      if isQuote (at' line st) then
        match skipQuotedPos line st with
        | .error e => .error e
        | .ok st' => scanLine m pfx line fuel st' stop (st' - 1) stval r
      else if at' line st = '#' then
        scanLine m pfx line fuel st (rskipPos line stval st) nonbl stval r
      else if at' line st = '=' then
        match takeKey m pfx line stval nonbl r with
        | .error e => .error e
        | .ok r' => scanLine m pfx line fuel (st + 1) stop nonbl (st + 1) r'
      else if at' line st ≠ ' ' ∧ at' line st ≠ '\t' then
        scanLine m pfx line fuel (st + 1) stop st stval r
      else scanLine m pfx line fuel (st + 1) stop nonbl stval r
    else .ok (stop, stval, r)

/-- The value on a line, common/ParameterSetImpl.cc:276-293. -/
def takeValue (line : List Char) (stop stval : Nat) (r : Reader) : Reader :=
  let stop := if at' line (stop - 1) = '\\' then rskipPos line stval (stop - 1) else stop
  let stval := lskipPos line (stop - stval) stval
  if stval < stop then
    let text := (line.drop stval).take (stop - stval)
    if r.value = [] then { r with value := text }
    else if isQuote (at' line stval) then { r with value := r.value ++ text }
    else { r with value := r.value ++ ' ' :: text }
  else r

/-- One line, common/ParameterSetImpl.cc:242-295. -/
def readLine (m : Mode) (pfx : List Char) (r : Reader) (line : List Char) : Except Err Reader :=
  let st := lskipPos line line.length 0
  if at' line st = '#' then .ok r
  else
    let stop := rskipPos line st line.length
    if st < stop then
      match scanLine m pfx line (line.length + 2) st stop st st r with
      | .error e => .error e
      | .ok (stop, stval, r') => .ok (takeValue line stop stval r')
    else .ok r

/-- All lines. -/
def readLines (m : Mode) (pfx : List Char) : Reader → List (List Char) → Except Err Reader
  | r, [] => .ok r
  | r, l :: ls =>
    match readLine m pfx r l with
    | .error e => .error e
    | .ok r' => readLines m pfx r' ls

/-- The lines that `getline` gives; `cur` is the reversed start of the line. -/
def splitLines (cur : List Char) : List Char → List (List Char)
  | [] => if cur = [] then [] else [cur.reverse]
  | c :: r => if c = '\n' then cur.reverse :: splitLines [] r else splitLines (c :: cur) r

/-- common/ParameterSetImpl.cc:231-303 readStream. -/
def readStream (pfx text : List Char) (s : PSet) : Except Err PSet :=
  match readLines s.mode pfx ⟨s.map, [], []⟩ (splitLines [] text) with
  | .error e => .error e
  | .ok r =>
    .ok { s with map := if r.key ≠ [] then addMerge s.mode r.key r.value r.map else r.map }

/-- common/ParameterSetImpl.cc:477-487 writeStream. -/
def writeStream (s : PSet) : List Char := s.map.flatMap fun e => e.1 ++ '=' :: e.2 ++ ['\n']

end DP3.ParamSet

import Mathlib.Data.List.DropRight

/-!
# Text of sky models

A model of the splitting of lines and of the format in sky_model/ReadSkyModel.cc.

Simplified: a string is a list of characters, and a position in it is the part from there on. Error messages are not modelled. The
search for a closing quote looks beyond `end`, where there are only blanks and a closing bracket. Comparing names without case and
`tolower` are for ASCII.
-/

namespace DP3.SkyText

/-- The errors. -/
inductive Err
  | unbalanced | noValue | noQuote | noClosingQuote | quoteAsSeparator | degree | position | fuel
  deriving DecidableEq, Repr

/-- A space or tab, sky_model/ReadSkyModel.cc:164 and 174. -/
def isBlank (c : Char) : Bool := c = ' ' || c = '\t'

/-- `ltrim`, sky_model/ReadSkyModel.cc:161-169. -/
def ltrim (s : List Char) : List Char := s.dropWhile isBlank

/-- `rtrim`, sky_model/ReadSkyModel.cc:171-179. -/
def rtrim (s : List Char) : List Char := s.rdropWhile isBlank

/-- A character in front of a result. -/
def push (c : Char) : Except Err (List Char × List Char) → Except Err (List Char × List Char)
  | .ok (v, r) => .ok (c :: v, r)
  | .error e => .error e

/-- The loop of `nextValue`, sky_model/ReadSkyModel.cc:184-215: the part before the separator and the part from there on. The search
for a closing quote is a state. -/
def scan (sep : Char) : Option Char → Nat → List Char → Except Err (List Char × List Char)
  | some _, _, [] => .error .unbalanced
  | none, nbracket, [] => if nbracket = 0 then .ok ([], []) else .error .unbalanced
  | some q, nbracket, c :: cs => push c (scan sep (if c = q then none else some q) nbracket cs)
  | none, nbracket, c :: cs =>
    if c = '\'' || c = '"' then push c (scan sep (some c) nbracket cs)
    else if c = '[' then push c (scan sep none (nbracket + 1) cs)
    else if c = ']' then
      if nbracket = 0 then .error .unbalanced else push c (scan sep none (nbracket - 1) cs)
    else if nbracket = 0 && c = sep then .ok ([], c :: cs)
    else push c (scan sep none nbracket cs)

/-- `nextValue`, sky_model/ReadSkyModel.cc:184-215. -/
def nextValue (sep : Char) (s : List Char) : Except Err (List Char × List Char) := scan sep none 0 s

/-- The bits for a default or fixed value with that value, sky_model/ReadSkyModel.cc:113-118. -/
inductive Given
  | nothing
  | default (value : List Char)
  | fixed (value : List Char)
  deriving DecidableEq, Repr

/-- A column of an `SdbFormat`, sky_model/ReadSkyModel.cc:120-132. `known` is the number of a known field. -/
structure Field where
  name : List Char
  known : Option Nat
  skip : Bool
  given : Given
  sep : Char
  deriving DecidableEq, Repr

/-- The default for an empty value, sky_model/ReadSkyModel.cc:691-693. -/
def orDefault (given : Given) (value : List Char) : List Char :=
  match given with
  | .default d => if value = [] then d else value
  | _ => value

/-- The loop over the columns in `process`, sky_model/ReadSkyModel.cc:682-694, from a position on. -/
def splitValues : List Field → List Char → Except Err (List (List Char))
  | [], _ => .ok []
  | f :: fs, s =>
    match f.given with
    | .fixed v =>
      match splitValues fs s with
      | .ok vs => .ok (v :: vs)
      | .error e => .error e
    | _ =>
      if s = [] then
        match splitValues fs s with
        | .ok vs => .ok (orDefault f.given [] :: vs)
        | .error e => .error e
      else
        match nextValue f.sep s with
        | .error e => .error e
        | .ok (v, r) =>
          match splitValues fs (ltrim (r.drop 1)) with
          | .ok vs => .ok (orDefault f.given (rtrim v) :: vs)
          | .error e => .error e

/-- The values of a line, sky_model/ReadSkyModel.cc:678-700. -/
def lineValues (fields : List Field) (line : List Char) : Except Err (List (List Char)) := splitValues fields (ltrim line)

/-- `unquote`, sky_model/ReadSkyModel.cc:368-378. -/
def unquote (v : List Char) : List Char :=
  if v.length > 1 then
    if (v.head? = some '"' && v.getLast? = some '"') || (v.head? = some '\'' && v.getLast? = some '\'') then (v.drop 1).dropLast else v
  else v

/-- The element of `fieldNrs` for a known field, sky_model/ReadSkyModel.cc:274 and 339: the last column with it. -/
def fieldNr (fields : List Field) (field : Nat) : Option Nat :=
  fields.zipIdx.foldl (fun (nr : Option Nat) p => if p.1.known = some field then some p.2 else nr) none

/-- `getValue`, sky_model/ReadSkyModel.cc:380-386. -/
def getValue (values : List (List Char)) (nr : Option Nat) (defVal : List Char) : List Char :=
  match nr with
  | none => defVal
  | some nr => unquote (values.getD nr [])

/-- The loop of `string2vector`, sky_model/ReadSkyModel.cc:434-438, with fuel. -/
def vectorLoop : Nat → List Char → Except Err (List (List Char))
  | 0, _ => .error .fuel
  | fuel + 1, s =>
    if s = [] then .ok []
    else
      match nextValue ',' s with
      | .error e => .error e
      | .ok (v, r) =>
        match vectorLoop fuel (ltrim (r.drop 1)) with
        | .ok vs => .ok (rtrim v :: vs)
        | .error e => .error e

/-- `string2vector` without default, sky_model/ReadSkyModel.cc:419-442. -/
def string2vector (value : List Char) : Except Err (List (List Char)) :=
  if value = [] then .ok []
  else if value.length < 2 || value.head? ≠ some '[' || value.getLast? ≠ some ']' then .ok [value]
  else
    let s := rtrim (ltrim (value.drop 1).dropLast)
    vectorLoop (s.length + 1) s

/-! ## The format -/

/-- The names, sky_model/ReadSkyModel.cc:73-106. -/
def fieldNames : List String :=
  ["Name", "Type", "RefType", "Ra", "Dec", "I", "Q", "U", "V", "SpectralIndex", "LogarithmicSI", "ReferenceFrequency", "MajorAxis",
   "MinorAxis", "Orientation", "OrientationIsAbsolute", "RotationMeasure", "PolarizedFraction", "PolarizationAngle",
   "ReferenceWavelength", "IShapelet", "QShapelet", "UShapelet", "VShapelet", "Category", "Patch", "rah", "rad", "ram", "ras",
   "dech", "decd", "decm", "decs"]

/-- `boost::to_lower_copy`. -/
def lower (s : List Char) : List Char := s.map Char.toLower

/-- `nameMap.find`, sky_model/ReadSkyModel.cc:219-222 and 269-270. -/
def fieldNumber (name : List Char) : Option Nat := (fieldNames.map fun n => lower n.toList).idxOf? (lower name)

/-- A letter, digit or underscore, sky_model/ReadSkyModel.cc:250-252 and 309-311. -/
def isWord (c : Char) : Bool := ('a' ≤ c && c ≤ 'z') || ('A' ≤ c && c ≤ 'Z') || ('0' ≤ c && c ≤ '9') || c = '_'

/-- The column for a name, sky_model/ReadSkyModel.cc:257-276 and 330-346. -/
def column (name : List Char) (given : Given) (sep : Char) : Field :=
  let skip := decide (lower name = [] ∨ lower name = "dummy".toList)
  { name, known := if skip then none else fieldNumber name, skip, given, sep }

/-- The value after an equal sign and what follows, sky_model/ReadSkyModel.cc:277-306: the part after the name. -/
def givenValue (s : List Char) : Except Err (Given × List Char) :=
  match ltrim s with
  | '=' :: s =>
    let s := ltrim s
    let isFixed := decide (5 < s.length ∧ lower (s.take 5) = "fixed".toList)
    match (if isFixed then s.drop 5 else s) with
    | [] => .error .noValue
    | q :: s =>
      if q = '"' || q = '\'' then
        if q ∈ s then
          let v := s.takeWhile (· ≠ q)
          let r := ltrim ((s.dropWhile (· ≠ q)).drop 1)
          .ok (if isFixed then .fixed v else .default v, r)
        else .error .noClosingQuote
      else .error .noQuote
  | s => .ok (.nothing, s)

/-- The separator after a column, sky_model/ReadSkyModel.cc:307-319. `beyond` is the character behind the trimmed format: a blank, or
the null that ends the string. -/
def separator (beyond : Char) (s : List Char) : Except Err (Char × List Char) :=
  match s with
  | [] => .ok (beyond, [])
  | c :: cs =>
    if isWord c then .ok (' ', c :: cs)
    else if c = '"' || c = '\'' then .error .quoteAsSeparator
    else .ok (c, ltrim cs)

/-- A column in front of a result. -/
def pushField (f : Field) : Except Err (List Field) → Except Err (List Field)
  | .ok fs => .ok (f :: fs)
  | .error e => .error e

/-- The loop over the format and the last name, sky_model/ReadSkyModel.cc:247-347, with fuel: `name` is the part from `st` to `i`. -/
def formatLoop (beyond : Char) : Nat → List Char → List Char → Except Err (List Field)
  | 0, _, _ => .error .fuel
  | _ + 1, name, [] => if name = [] then .ok [] else .ok [column name .nothing ' ']
  | fuel + 1, name, c :: cs =>
    if isWord c || (c = ':' && name ≠ []) then formatLoop beyond fuel (name ++ [c]) cs
    else if lower name = "spectralindexdegree".toList then .error .degree
    else
      match givenValue (c :: cs) with
      | .error e => .error e
      | .ok (given, s) =>
        match separator beyond s with
        | .error e => .error e
        | .ok (sep, s) => pushField (column name given sep) (formatLoop beyond fuel [] s)

/-- `checkRaDec`, sky_model/ReadSkyModel.cc:143-159, for the number of the field and these of the fields of its parts. -/
def checkRaDec (fields : List Field) (nr hnr dnr mnr snr : Nat) : Bool :=
  let v := (fieldNr fields nr).isSome
  let hv := (fieldNr fields hnr).isSome
  let dv := (fieldNr fields dnr).isSome
  let mv := (fieldNr fields mnr).isSome
  let sv := (fieldNr fields snr).isSome
  !(hv && dv) && !(v && (hv || dv || mv || sv)) && (v || hv || dv || mv || sv)

/-- `getFormat`, sky_model/ReadSkyModel.cc:217-352. For an empty string `end - 1` wraps around, so that the default is not used. -/
def getFormat (format : List Char) : Except Err (List Field) :=
  let s := rtrim (ltrim format)
  if format ≠ [] ∧ s.length ≤ 1 then
    .ok ((fieldNames.take 24).zipIdx.map fun n =>
      { name := n.1.toList, known := some n.2, skip := false, given := .nothing, sep := s.headD ',' })
  else
    let beyond := ((ltrim format).drop s.length).headD '\x00'
    match formatLoop beyond (s.length + 1) [] s with
    | .error e => .error e
    | .ok fields => if checkRaDec fields 3 26 27 28 29 && checkRaDec fields 4 30 31 32 33 then .ok fields else .error .position

/-- A known field of a line, sky_model/ReadSkyModel.cc:702-732, by the number of the field. -/
def lineField (fields : List Field) (line : List Char) (field : Nat) (defVal : List Char) : Except Err (List Char) :=
  match lineValues fields line with
  | .ok values => .ok (getValue values (fieldNr fields field) defVal)
  | .error e => .error e

/-! ## Positions -/

/-- A number with a sign: a double can be a negative zero. -/
structure Number where
  negative : Bool
  size : Rat

/-- The value of a number. -/
def Number.value (x : Number) : Rat := if x.negative then -x.size else x.size

/-- `string2pos` for separate columns, sky_model/ReadSkyModel.cc:479-520: the result in degrees, for the values of the columns that are
there and not empty. `none` stands for the position 1e-9 in radians. -/
def partsToPos (hasHours : Bool) (first m s : Option Number) : Option Rat :=
  let deg := match first with | some x => x.value | none => 0
  let ms := match m with | some x => x.value | none => 0
  let ms := match s with | some x => ms + x.value / 60 | none => ms
  let deg := if deg < 0 then deg - ms / 60 else deg + ms / 60
  let deg := if hasHours then deg * 15 else deg
  if first.isSome || m.isSome || s.isSome then some deg else none

end DP3.SkyText

import Verif.Model.Base
/-! Model of `parsers/text.py` and `compilers/text.py`. -/
set_option autoImplicit false
namespace Verif

/-! ### strings -/

/-- `s.strip("\0")` — parsers/text.py:110-116 -/
def stripNul (s : PyStr) : PyStr := ((s.dropWhile (· == 0)).reverse.dropWhile (· == 0)).reverse

/-- `StringParser._parse` — parsers/text.py:110-116 -/
def parseString : R PyStr := do
  let s ← readStrAll
  pure (stripNul s)

/-- `StringCompiler._compile` — compilers/text.py:35-41 -/
def compileString (s : PyStr) : W := writeStr (some s)

/-- `VendorIdCompiler._compile` — compilers/text.py:44-50 -/
def compileVendorId (s : PyStr) : W := writeStr (some s) 4

/-! ### name records -/

/-- a name record: (nameID, platID, encID, langID, name) — parsers/text.py:12-29 -/
structure NameRecord where
  nameID : Int
  platID : Int
  encID : Int
  langID : Int
  name : PyStr
  deriving DecidableEq, Repr

/-- one character — parsers/text.py:19-28.  `chr` raises ValueError outside 0…0x10FFFF, which is
replaced by U+FEFF; for Mac Roman records `to_bytes(1)` raises OverflowError above 255, which is not
caught. -/
def nameChar (mac : Bool) (c : Int) : Except PyErr Nat :=
  if c < 0 ∨ 0x10FFFF < c then .ok 0xFEFF
  else if mac then
    if 255 < c then .error .overflow
    else match macRomanDecode (UInt8.ofNat c.toNat) with
      | some x => .ok x
      | none => .ok 0xFEFF
  else .ok c.toNat

/-- `for c in name_codes: … name += char` — parsers/text.py:12-29 -/
def nameChars (mac : Bool) : List Int → Except PyErr PyStr
  | [] => .ok []
  | c :: cs =>
    match nameChar mac c with
    | .error e => .error e
    | .ok x => match nameChars mac cs with
      | .error e => .error e
      | .ok xs => .ok (x :: xs)

/-- one record — parsers/text.py:12-29 -/
def parseNameRecord : R NameRecord := do
  let nameID ← readValue
  let platID ← readValue
  let encID ← readValue
  let langID ← readValue
  let name_length ← readValue
  let name_codes ← R.forRange name_length readValue
  let name ← R.lift (nameChars (platID == 1 && encID == 0) name_codes)
  pure { nameID, platID, encID, langID, name }

/-- `NameRecordsParser._parse` — parsers/text.py:7-31 -/
def parseNameRecords : R (List NameRecord) := do
  let num ← readValue
  R.forRange num parseNameRecord

/-- one character — compilers/text.py:16-23 (`ord` of a one-byte `bytes` or of a character) -/
def nameOrd (mac : Bool) (c : Nat) : Int :=
  if mac then
    match macRomanEncode c with
    | some b => b.toNat
    | none => 63
  else c

/-- one record — compilers/text.py:9-23 -/
def compileNameRecord (nr : NameRecord) : W :=
  writeValue nr.nameID ++ writeValue nr.platID ++ writeValue nr.encID ++ writeValue nr.langID ++
  writeValue nr.name.length ++
  W.all nr.name fun c => writeValue (nameOrd (nr.platID == 1 && nr.encID == 0) c)

/-- `NameRecordsCompiler._compile` — compilers/text.py:6-23 -/
def compileNameRecords (l : List NameRecord) : W :=
  writeValue l.length ++ W.all l compileNameRecord

/-! ### OpenType feature code -/

/-- line boundaries of `str.splitlines` — parsers/text.py:88-107 -/
def isLineBreak (c : Nat) : Bool :=
  c == 10 || c == 13 || c == 11 || c == 12 || c == 0x1c || c == 0x1d || c == 0x1e || c == 0x85 ||
  c == 0x2028 || c == 0x2029

/-- `s.splitlines()`; `cur` is the current, unfinished line — parsers/text.py:88-107 -/
def splitLinesAux (cur : PyStr) : PyStr → List PyStr
  | [] => if cur = [] then [] else [cur]
  | [c] => if isLineBreak c then [cur] else [cur ++ [c]]
  | c :: d :: s =>
    if c = 13 ∧ d = 10 then cur :: splitLinesAux [] s
    else if isLineBreak c then cur :: splitLinesAux [] (d :: s)
    else splitLinesAux (cur ++ [c]) (d :: s)

/-- `s.splitlines()` — parsers/text.py:88-107 -/
def splitLines (s : PyStr) : List PyStr := splitLinesAux [] s

/-- `str.isspace` of one character — parsers/text.py:91-100 -/
def isSpaceChar (c : Nat) : Bool :=
  (9 ≤ c && c ≤ 13) || (0x1c ≤ c && c ≤ 0x20) || c == 0x85 || c == 0xa0 || c == 0x1680 ||
  (0x2000 ≤ c && c ≤ 0x200a) || c == 0x2028 || c == 0x2029 || c == 0x202f || c == 0x205f || c == 0x3000

/-- `not line.strip()` — parsers/text.py:91-100 -/
def isBlank (line : PyStr) : Bool := line.all isSpaceChar

/-- the filter loop — parsers/text.py:91-100; `c` blank lines have been seen directly before -/
def filterBlank (c : Nat) : List PyStr → List PyStr
  | [] => []
  | line :: lines =>
    if isBlank line then
      if c < 2 then line :: filterBlank (c + 1) lines else filterBlank (c + 1) lines
    else line :: filterBlank 0 lines

/-- `while not lines[-1]: lines.pop()` — parsers/text.py:104-105 (IndexError on an empty list) -/
def popEmpty (lines : List PyStr) : Except PyErr (List PyStr) :=
  match (lines.reverse.dropWhile (· == [])).reverse with
  | [] => .error .index
  | l => .ok l

/-- `OpenTypeStringParser._parse` — parsers/text.py:88-107 -/
def normaliseFea (s : PyStr) : Except PyErr (List PyStr) :=
  let lines := filterBlank 0 (splitLines s)
  if lines.length > 1 then
    match popEmpty lines with
    | .error e => .error e
    | .ok l => .ok (l ++ [[]])
  else .ok (lines ++ [[]])

/-- `OpenTypeStringParser._parse` — parsers/text.py:88-107 -/
def parseFea : R (List PyStr) := do
  let s ← readStrAll
  R.lift (normaliseFea s)

/-- `"\n".join(lines)` — compilers/text.py:26-32 -/
def joinLines : List PyStr → PyStr
  | [] => []
  | [l] => l
  | l :: m :: ls => l ++ 10 :: joinLines (m :: ls)

/-- `OpenTypeStringCompiler._compile` — compilers/text.py:26-32 -/
def compileFea (data : List PyStr) : W := writeStr (some (joinLines data))

/-! ### splitting feature code into features -/

/-- `FeaturesDict` — typing.py:84-86 -/
structure FeaturesDict where
  prefix_ : List PyStr
  features : List (PyStr × List PyStr)
  deriving DecidableEq, Repr

/-- the variables of `build_fea_dict` — parsers/text.py:54-58 -/
structure FeaState where
  fea : FeaturesDict := ⟨[], []⟩
  prefix_ : List PyStr := []
  feature : List PyStr := []
  tag : PyStr := []
  inPrefix : Bool := true

/-- code of a line without its comment: `line.split("#", 1)[0]` — parsers/text.py:60-63 -/
def stripComment (line : PyStr) : PyStr := line.takeWhile (· != 35)

/-- one line of `build_fea_dict` — parsers/text.py:59-81.  `search` is the regular expression search
`\s*feature\s*([a-z0-9]{4})\s*\{` as a parameter: the tag if it matches. -/
def feaStep (search : PyStr → Option PyStr) (st : FeaState) (line : PyStr) : FeaState :=
  match search (stripComment line) with
  | some t =>
    if st.inPrefix then
      { st with fea := { st.fea with prefix_ := st.prefix_ }, inPrefix := false, tag := t, feature := [line] }
    else
      { st with
        fea := { st.fea with features := st.fea.features ++ [(st.tag, st.feature)] }
        tag := t
        feature := [line] }
  | none =>
    if st.inPrefix then { st with prefix_ := st.prefix_ ++ [line] }
    else { st with feature := st.feature ++ [line] }

/-- `OpenTypeStringParser.build_fea_dict` — parsers/text.py:39-86 -/
def buildFeaDict (search : PyStr → Option PyStr) (data : List PyStr) : FeaturesDict :=
  let st := data.foldl (feaStep search) {}
  { st.fea with features := st.fea.features ++ [(st.tag, st.feature)] }

end Verif

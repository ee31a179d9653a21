import Verif.Model.Stream
/-! Model of `helpers.py` and of the entry parsers/compilers of `parsers/base.py:177-358`,
`compilers/base.py:163-302`. -/
set_option autoImplicit false
namespace Verif

/-! ### helpers.py -/

/-- Python's `bytes.hex` digit — helpers.py:35-36 -/
def hexDigit (n : Nat) : Nat := if n < 10 then 48 + n else 87 + n

/-- `hexStr(b)` — helpers.py:35-36 (`bytes.hex(b)`: two lower-case digits per byte) -/
def hexStr (b : Bytes) : PyStr :=
  b.flatMap fun x => [hexDigit (x.toNat / 16), hexDigit (x.toNat % 16)]

/-- value of a hex digit, upper or lower case — helpers.py:31-32 -/
def hexVal (c : Nat) : Option Nat :=
  if 48 ≤ c ∧ c ≤ 57 then some (c - 48)
  else if 97 ≤ c ∧ c ≤ 102 then some (c - 87)
  else if 65 ≤ c ∧ c ≤ 70 then some (c - 55)
  else none

/-- ASCII white space that `bytes.fromhex` skips between bytes — helpers.py:31-32 -/
def isHexSpace (c : Nat) : Bool := c == 32 || (9 ≤ c && c ≤ 13)

/-- `deHexStr(s)` — helpers.py:31-32 (`bytes.fromhex(s)`): white space between bytes is skipped,
anything else that is not a pair of hex digits is a ValueError. -/
def deHexStr : PyStr → Except PyErr Bytes
  | [] => .ok []
  | c :: s =>
    if isHexSpace c then deHexStr s
    else match s with
      | [] => .error .value
      | d :: s' =>
        match hexVal c, hexVal d with
        | some h, some l =>
          match deHexStr s' with
          | .ok b => .ok (UInt8.ofNat (16 * h + l) :: b)
          | .error e => .error e
        | _, _ => .error .value

/-- the loop of `binaryToIntList` — helpers.py:14-21; `fuel` bounds the iterations -/
def binaryToIntListLoop : Nat → Int → Int → Except PyErr (List Int)
  | 0, _, _ => .error .fuel
  | fuel + 1, value, counter =>
    if value = 0 then .ok []                            -- `while value:`
    else
      match binaryToIntListLoop fuel (value / 2) (counter + 1) with   -- `value >>= 1`, floor division
      | .error e => .error e
      | .ok l => .ok (if value % 2 = 1 then counter :: l else l)      -- `value & 1`

/-- `binaryToIntList(value, start)` — helpers.py:13-21.  The fuel is enough for every
non-negative value; for a negative value the Python loop never ends (see C18). -/
def binaryToIntList (value : Int) (start : Int := 0) : Except PyErr (List Int) :=
  binaryToIntListLoop (value.toNat.log2 + 2) value start

/-- `intListToBinary(bits)` — helpers.py:24-28.  A negative bit makes Python compute with floats;
the callers then fail with AttributeError or TypeError, represented here as `type`. -/
def intListToBinary : List Int → Except PyErr Int
  | [] => .ok 0
  | b :: bs =>
    if b < 0 then .error .type
    else match intListToBinary bs with
      | .ok v => .ok ((2 ^ b.toNat : Nat) + v)
      | .error e => .error e

/-! ### hex fallback -/

/-- `BaseParser._parse` — parsers/base.py:230-238 -/
def parseHex : R PyStr := do
  let b ← R.readAll
  pure (hexStr b)

/-- `HexStringCompiler._compile` — compilers/base.py:246-260 (`None` and `""` write nothing) -/
def compileHex (data : Option PyStr) : W :=
  match data with
  | none => W.nil
  | some [] => W.nil
  | some s => deHexStr s

/-! ### lists of encoded values -/

/-- one iteration of `EncodedValueListParser._parse` — parsers/base.py:303-311: the `EOFError` of
`read_value` ends the loop (the zero byte has been consumed then), other exceptions propagate. -/
def evlBody (acc : List Int) : R (List Int ⊕ List Int) := fun s =>
  match readValue true s with
  | .ok v r => .ok (.inl (acc ++ [v])) r
  | .err .eof r => .ok (.inr acc) r
  | .err e r => .err e r

/-- `EncodedValueListParser._parse` — parsers/base.py:298-311 -/
def parseValueList : R (List Int) := R.whileTrue evlBody []

/-- `EncodedValueListCompiler._compile` — compilers/base.py:220-223 -/
def compileValueList (data : List Int) : W := W.all data fun v => writeValue v

/-- `EncodedValueListWithCountParser._parse` — parsers/base.py:314-326 -/
def parseValueListCount : R (List Int) := do
  let count ← readValue
  R.forRange count readValue

/-- `EncodedValueListWithCountCompiler._compile` — compilers/base.py:226-230 -/
def compileValueListCount (data : List Int) : W :=
  writeValue data.length ++ W.all data fun v => writeValue v

/-! ### glyph encoding -/

/-- `GlyphEncodingParser._parse` — parsers/base.py:329-333 -/
def parseGlyphEncoding : R (Int × PyStr) := do
  let gid ← readU16
  let nam ← readStrAll
  pure (gid, nam)

/-- `GlyphEncodingCompiler._compile` — compilers/base.py:233-243 -/
def compileGlyphEncoding (data : Int × PyStr) : W :=
  writeU16 data.1 ++ writeStr (some data.2)

/-! ### mapping mode -/

/-- `mapping_modes` — __init__.py:32-36 and compilers/base.py:263-267 -/
def mappingModes : List (Int × PyStr) :=
  [(0, lit "names_or_index"), (1, lit "unicode_ranges"), (3, lit "codepages")]

/-- MappingModeDict — typing.py:238-242 -/
structure MappingMode where
  mapping_mode : PyStr
  m2 : Int
  m3 : Int
  mapping_id : Int
  deriving DecidableEq, Repr

/-- the local variables of `MappingModeParser._parse`; `none` = not yet assigned
— parsers/base.py:266-291 -/
structure MMVars where
  mapping_mode : Option PyStr := none
  m2 : Option Int := none
  m3 : Option Int := none
  mapping_id : Option Int := none

/-- one iteration of `MappingModeParser._parse` — parsers/base.py:266-291 and the `return`
statement :293-295 (UnboundLocalError when a variable was not assigned) -/
def mappingModeBody (st : MMVars) : R (MMVars ⊕ MappingMode) := do
  let key ← readU8
  if key = 0 then
    match st.mapping_mode, st.m2, st.m3, st.mapping_id with
    | some a, some b, some c, some d => pure (.inr ⟨a, b, c, d⟩)
    | _, _, _, _ => R.throw .unbound
  else do
    let v ← readValue
    if key = 1 then
      pure (.inl { st with mapping_mode := some ((dictGet mappingModes v).getD (intDec v)) })
    else if key = 2 then pure (.inl { st with m2 := some v })
    else if key = 3 then pure (.inl { st with m3 := some v })
    else if key = 4 then pure (.inl { st with mapping_id := some v })
    else R.throw .key

/-- `MappingModeParser._parse` — parsers/base.py:262-295 -/
def parseMappingMode : R MappingMode := R.whileTrue mappingModeBody {}

/-- `rev_map[name]` — compilers/base.py:272, 274 -/
def mappingModeRev (name : PyStr) : Except PyErr Int :=
  match dictGet (mappingModes.map fun p => (p.2, p.1)) name with
  | some k => .ok k
  | none => .error .key

/-- `MappingModeCompiler._compile` — compilers/base.py:270-281 -/
def compileMappingMode (d : MappingMode) : W :=
  writeU8 1 ++ (W.withVal (mappingModeRev d.mapping_mode) fun k => writeValue k) ++
  writeU8 2 ++ writeValue d.m2 ++
  writeU8 3 ++ writeValue d.m3 ++
  writeU8 4 ++ writeValue d.mapping_id ++ writeU8 0

/-! ### class flags -/

/-- `class_flags[name] = flags` for the parsed items in order — parsers/base.py:336-345 -/
def dictOfList {κ ν : Type} [DecidableEq κ] (l : List (κ × ν)) : List (κ × ν) :=
  l.foldl (fun d p => dictSet d p.1 p.2) []

/-- `OpenTypeKerningClassFlagsParser._parse` — parsers/base.py:336-345 -/
def parseKerningFlags : R (List (PyStr × (Int × Int))) := do
  let num ← readValue
  let items ← R.forRange num do
    let name ← readStrWithLen
    let flag1 ← readValue
    let flag2 ← readValue
    pure (name, (flag1, flag2))
  pure (dictOfList items)

/-- `OpenTypeKerningClassFlagsCompiler._compile` — compilers/base.py:284-291 -/
def compileKerningFlags (data : List (PyStr × (Int × Int))) : W :=
  writeValue data.length false ++ W.all data fun p =>
    writeStrWithLen (some p.1) ++ writeValue p.2.1 false ++ writeValue p.2.2 false

/-- `OpenTypeMetricsClassFlagsParser._parse` — parsers/base.py:348-358 -/
def parseMetricsFlags : R (List (PyStr × (Int × Int × Int))) := do
  let num ← readValue
  let items ← R.forRange num do
    let name ← readStrWithLen
    let flag1 ← readValue
    let flag2 ← readValue
    let flag3 ← readValue
    pure (name, (flag1, flag2, flag3))
  pure (dictOfList items)

/-- `OpenTypeMetricsClassFlagsCompiler._compile` — compilers/base.py:294-302 -/
def compileMetricsFlags (data : List (PyStr × (Int × Int × Int))) : W :=
  writeValue data.length false ++ W.all data fun p =>
    writeStrWithLen (some p.1) ++ writeValue p.2.1 false ++ writeValue p.2.2.1 false ++
      writeValue p.2.2.2 false

end Verif

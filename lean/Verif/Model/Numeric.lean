import Verif.Model.Base
/-! Model of `parsers/numeric.py`, `compilers/numeric.py`, `parsers/flversion.py`,
`compilers/flversion.py`. -/
set_option autoImplicit false
namespace Verif

/-- `Int16Parser._parse` — parsers/numeric.py:41-47 -/
def parseInt16 : R Int := readU16
/-- `Int16Compiler._compile` — compilers/numeric.py:25-31 -/
def compileInt16 (v : Int) : W := writeU16 v

/-- `SignedInt16Parser._parse` — parsers/numeric.py:97-103 -/
def parseSInt16 : R Int := readI16
/-- `SignedInt16Compiler._compile` — compilers/numeric.py:58-64 -/
def compileSInt16 (v : Int) : W := writeI16 v

/-- `SignedInt32Parser._parse` — parsers/numeric.py:106-113 -/
def parseSInt32 : R Int := readI32
/-- `SignedInt32Compiler._compile` — compilers/numeric.py:67-73 -/
def compileSInt32 (v : Int) : W := writeI32 v

/-- `DoubleParser._parse` — parsers/numeric.py:7-13 -/
def parseDouble : R Dbl := readDouble
/-- `DoubleCompiler._compile` — compilers/numeric.py:7-13 -/
def compileDouble (d : Dbl) : W := writeDouble d

/-- `DoubleListParser._parse` — parsers/numeric.py:24-29, 32-38: `nbytes // 8` doubles, where
`nbytes` is the size of the whole payload (the parser starts at its beginning) -/
def parseDoubleList : R (List Dbl) := fun s => R.rep (s.length / 8) readDouble s
/-- `DoubleListCompiler._compile` — compilers/numeric.py:16-22 -/
def compileDoubleList (l : List Dbl) : W := writeDoubles l

/-- `IntListParser._parse` — parsers/numeric.py:68-85 -/
def parseIntList : R (List Int) := fun s => R.rep (s.length / 4) readU32 s
/-- `IntListCompiler._compile` — compilers/numeric.py:34-45 -/
def compileIntList (l : List Int) : W := W.all l fun v => toBytesLE 4 false v

/-- `PanoseParser._parse` — parsers/numeric.py:88-94: `unpack("<10b", …)` needs exactly ten bytes -/
def parsePanose : R (List Int) := do
  let b ← R.readAll
  if b.length = 10 then pure (b.map fun x => toSigned 1 x.toNat) else R.throw .structError
/-- `PanoseCompiler._compile` — compilers/numeric.py:48-55: `pack("<10b", *data)` -/
def compilePanose (l : List Int) : W :=
  if l.length = 10 then W.all l (packLE 1 true) else .error .structError

/-- `UnicodeRangesParser._parse` — parsers/numeric.py:116-123 -/
def parseUnicodeRanges : R (List Int) := do
  let b ← R.readN 64
  R.lift (binaryToIntList (fromLE false b))
/-- `UnicodeRangesCompiler._compile` — compilers/numeric.py:76-85.  A negative bit number makes
`value` a float, on which `to_bytes` raises AttributeError. -/
def compileUnicodeRanges (l : List Int) : W :=
  match intListToBinary l with
  | .error _ => .error .attr
  | .ok value => toBytesLE 16 false value

/-! ### FontLab version -/

/-- `FLVersionDict` — typing.py:94-97 -/
structure FLVersion where
  platform : PyStr
  version : List Int
  owner : Int
  deriving DecidableEq, Repr

/-- `platform_names` — parsers/flversion.py:17-20 -/
def platformNames : List (Int × PyStr) := [(0, lit "windows"), (1, lit "macos")]
/-- `platform_ids` — parsers/flversion.py:22-25 -/
def platformIds : List (PyStr × Int) := [(lit "macos", 1), (lit "windows", 0)]

/-- `value >> i & 0xFF for i in (24, 16, 8, 0)` — parsers/flversion.py:46-49 -/
def versionBytes (value : Int) : List Int :=
  [value / 16777216 % 256, value / 65536 % 256, value / 256 % 256, value % 256]

/-- one iteration of `FLVersionParser._parse` — parsers/flversion.py:37-52 -/
def flVersionBody (st : FLVersion) : R (FLVersion ⊕ FLVersion) := do
  let key ← readU8
  if key = 0 then pure (.inr st)
  else do
    let value ← readValue
    if key = 1 then
      match dictGet platformNames value with
      | some p => pure (.inl { st with platform := p })
      | none => R.throw .key
    else if key = 2 then pure (.inl { st with version := versionBytes value })
    else if key = 3 then pure (.inl { st with owner := value })
    else pure (.inl st)

/-- `FLVersionParser._parse` — parsers/flversion.py:28-54 -/
def parseFLVersion : R FLVersion :=
  R.whileTrue flVersionBody { platform := lit "macos", version := [5, 2, 2, 128], owner := 0 }

/-- `FLVersionCompiler._compile` — compilers/flversion.py:13-28 -/
def compileFLVersion (d : FLVersion) : W :=
  writeU8 1 ++
  (match dictGet platformIds d.platform with
    | some i => writeValue i
    | none => .error .key) ++
  writeU8 2 ++
  (if d.version.length = 4 then writeU8 0xFF ++ W.all d.version writeU8 else .error .assertion) ++
  writeU8 3 ++ writeValue d.owner ++
  writeU8 0

end Verif

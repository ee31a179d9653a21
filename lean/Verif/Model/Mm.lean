import Verif.Model.Base
import Verif.Model.Float
/-! Model of `parsers/mm.py`, `compilers/mm.py`, `parsers/cmap.py`, `compilers/cmap.py`,
`parsers/binary.py`, `compilers/binary.py`, `parsers/fl3.py`, `compilers/fl3.py`. -/
set_option autoImplicit false
namespace Verif

/-! ### axes and masters -/

/-- a pair of values — parsers/mm.py:13 -/
def readPair : R (Int × Int) := do
  let a ← readValue
  let b ← readValue
  pure (a, b)

/-- one axis — parsers/mm.py:12-13 -/
def readAnisoAxis : R (List (Int × Int)) := do
  let n ← readValue
  R.forRange n readPair

/-- one iteration of the loop — parsers/mm.py:9-16: an EOFError anywhere in the axis ends the loop -/
def anisoBody (acc : List (List (Int × Int))) : R (List (List (Int × Int)) ⊕ List (List (Int × Int))) := fun s =>
  match readAnisoAxis s with
  | .ok a r => .ok (.inl (acc ++ [a])) r
  | .err .eof r => .ok (.inr acc) r
  | .err e r => .err e r

/-- `AnisotropicInterpolationsParser._parse` — parsers/mm.py:5-16 -/
def parseAniso : R (List (List (Int × Int))) := R.whileTrue anisoBody []

/-- one axis — compilers/mm.py:11-15 -/
def writeAnisoAxis (a : List (Int × Int)) : W := writeValue a.length ++ W.all a fun p => writeValue p.1 ++ writeValue p.2

/-- `AnisotropicInterpolationsCompiler._compile` — compilers/mm.py:9-15 -/
def compileAniso (l : List (List (Int × Int))) : W := W.all l writeAnisoAxis

/-- `AxisMappingsCountParser._parse` — parsers/mm.py:19-25 -/
def parseAxisCounts : R (List Int) := R.rep 4 readU32
/-- `AxisMappingsCountCompiler._compile` — compilers/mm.py:18-21 -/
def compileAxisCounts (l : List Int) : W := W.all l writeU32

/-- one mapping — parsers/mm.py:36-38 -/
def readMapping : R (Dbl × Dbl) := do
  let src ← readDouble
  let tgt ← readDouble
  pure (src, tgt)

/-- `AxisMappingsParser._parse` — parsers/mm.py:28-40: `self.stream.getbuffer().nbytes` is the size of the payload -/
def parseAxisMappings : R (List (Dbl × Dbl)) := fun s => R.rep (s.length / 16) readMapping s
/-- `AxisMappingsCompiler._compile` — compilers/mm.py:24-28 -/
def compileAxisMappings (l : List (Dbl × Dbl)) : W := W.all l fun p => writeDouble p.1 ++ writeDouble p.2

/-- `MasterLocationParser._parse` — parsers/mm.py:43-51 (the location as a list) -/
def parseMasterLocation : R (Int × List Dbl) := do
  let i ← readU32
  let l ← R.rep 4 readDouble
  pure (i, l)
/-- `MasterLocationCompiler._compile` — compilers/mm.py:31-35 -/
def compileMasterLocation (d : Int × List Dbl) : W := writeU32 d.1 ++ writeDoubles d.2

/-- `PrimaryInstanceDict`; the coordinates are doubles, see `Model/Float.lean`
— typing.py:278-280 -/
structure PrimaryInstance where
  name : PyStr
  values : List Rat
  deriving DecidableEq

/-- one coordinate — parsers/mm.py:60 -/
def readCoord : R Rat := do
  let v ← readValue
  pure (fdiv v 10000)

/-- one instance — parsers/mm.py:59-61 -/
def readInstance : R PrimaryInstance := do
  let name ← readStrWithLen
  let values ← R.rep 4 readCoord
  pure ⟨name, values⟩

/-- `PrimaryInstancesParser._parse` — parsers/mm.py:54-63 -/
def parseInstances : R (List PrimaryInstance) := do
  let num ← readValue
  R.forRange num readInstance

/-- one instance — compilers/mm.py:42-45: `int(10000 * value)` -/
def writeInstance (i : PrimaryInstance) : W :=
  writeStrWithLen (some i.name) ++ W.all i.values fun x => writeValue (truncInt (fmul x 10000))

/-- `PrimaryInstancesCompiler._compile` — compilers/mm.py:38-45 -/
def compileInstances (l : List PrimaryInstance) : W := writeValue l.length ++ W.all l writeInstance

/-! ### custom cmaps -/

/-- `CustomCmap` — typing.py:49-55 -/
structure CustomCmap where
  languageId : Int
  platformId : Int
  encodingId : Int
  format : Int
  option : Int
  pageName : PyStr
  deriving DecidableEq, Repr

/-- one cmap — parsers/cmap.py:14-21 -/
def readCmap : R CustomCmap := do
  let l ← readValue
  let p ← readValue
  let e ← readValue
  let f ← readValue
  let o ← readValue
  let n ← readStrWithLen
  pure ⟨l, p, e, f, o, n⟩

/-- `CustomCmapParser._parse` — parsers/cmap.py:10-23 -/
def parseCmaps : R (List CustomCmap) := do
  let count ← readValue
  R.forRange count readCmap

/-- one cmap — compilers/cmap.py:13-15 -/
def writeCmap (c : CustomCmap) : W :=
  writeValue c.languageId ++ (writeValue c.platformId ++ (writeValue c.encodingId ++ (writeValue c.format ++
    (writeValue c.option ++ writeStrWithLen (some c.pageName)))))

/-- `CustomCmapCompiler._compile` — compilers/cmap.py:10-15 -/
def compileCmaps (l : List CustomCmap) : W := writeValue l.length ++ W.all l writeCmap

/-! ### binary tables -/

/-- the dict of a binary table — parsers/binary.py:9-13 -/
structure BinaryTable where
  tag : PyStr
  data : PyStr
  deriving DecidableEq, Repr

/-- `BinaryTableParser._parse` — parsers/binary.py:9-13 -/
def parseBinaryTable : R BinaryTable := do
  let tag ← readStr 4
  let b ← R.readAll
  pure ⟨tag, hexStr b⟩

/-- `BinaryTableCompiler._compile` — compilers/binary.py:12-14 -/
def compileBinaryTable (d : BinaryTable) : W := writeStr (some d.tag) ++ W.withVal (deHexStr d.data) writeBytes

/-! ### FontLab 3 kerning pairs -/

/-- What `MMKernPairCompiler` may get: the dict that the parser returns, or the list of integers it is written for
— parsers/fl3.py:14-23 -/
inductive KernPairData where
  | pair (l r : Int) (values : List Int)
  | ints (l : List Int)
  deriving DecidableEq, Repr

/-- `MMKernPairParser._parse` — parsers/fl3.py:14-23 -/
def parseKernPair (numMasters : Nat) : R KernPairData := do
  let l ← readU32
  let r ← readU32
  let values ← R.rep numMasters readI16
  pure (.pair l r values)

/-- `MMKernPairCompiler._compile` — compilers/fl3.py:9-11.  Iterating over the dict gives its keys `"l"`, `"r"` and
`"values"`; `write_int16("l")` calls `"l".to_bytes`: AttributeError. -/
def compileKernPair : KernPairData → W
  | .ints l => W.all l writeI16
  | .pair _ _ _ => .error .attr

end Verif

import Verif.Model.Base
/-! Model of `parsers/guides.py`, `compilers/guides.py`. -/
set_option autoImplicit false
namespace Verif

/-- The float functions of the guide angle: `toAngle v = degrees(atan2(v, 10000))`
(parsers/guides.py:47) and `fromAngle a = int(tan(radians(a)) * 10000)` (compilers/guides.py:20).
They are computed by the C library and are parameters of the model. -/
structure AngleOps where
  Angle : Type
  toAngle : Int → Angle
  fromAngle : Angle → Int

/-- `GuideDict` — typing.py:196-198 -/
structure Guide (A : Type) where
  pos : Int
  angle : A
  deriving DecidableEq, Repr

/-- `MMGuidesDict`: for each direction a list of guides, each a list over the masters
— typing.py:204-206 -/
structure MMGuides (A : Type) where
  h : List (List (Guide A))
  v : List (List (Guide A))
  deriving DecidableEq, Repr

/-- one master of one guide — parsers/guides.py:45-48 -/
def parseGuide (ops : AngleOps) : R (Guide ops.Angle) := do
  let pos ← readValue
  let slope ← readValue
  pure ⟨pos, ops.toAngle slope⟩

/-- one direction — parsers/guides.py:36-51 (for `num_guides == 0` the initial empty list stays) -/
def parseGuideDir (ops : AngleOps) (numMasters : Nat) : R (List (List (Guide ops.Angle))) := do
  let num ← readValue
  R.forRange num (R.rep numMasters (parseGuide ops))

/-- `parse_guides(stream, num_masters, name)` — parsers/guides.py:19-53 -/
def parseGuides (ops : AngleOps) (numMasters : Nat) : R (MMGuides ops.Angle) := do
  let h ← parseGuideDir ops numMasters
  let v ← parseGuideDir ops numMasters
  pure ⟨h, v⟩

/-- `GlobalGuidesParser._parse` — parsers/guides.py:56-61 -/
def parseGlobalGuides (ops : AngleOps) (numMasters : Nat) : R (MMGuides ops.Angle) := do
  let g ← parseGuides ops numMasters
  let b ← R.readAll
  if b = [] then pure g else R.throw .assertion

/-- one master of one guide — compilers/guides.py:19-21 -/
def compileGuide (ops : AngleOps) (g : Guide ops.Angle) : W :=
  writeValue g.pos ++ writeValue (ops.fromAngle g.angle)

/-- one guide — compilers/guides.py:18-21: `guide[master_index]` raises IndexError when the list
is too short; elements beyond the number of masters are not written -/
def compileGuideMM (ops : AngleOps) (numMasters : Nat) (g : List (Guide ops.Angle)) : W :=
  W.all (List.range numMasters) fun i =>
    match g[i]? with
    | some x => compileGuide ops x
    | none => .error .index

/-- one direction — compilers/guides.py:15-21 -/
def compileGuideDir (ops : AngleOps) (numMasters : Nat) (l : List (List (Guide ops.Angle))) : W :=
  writeValue l.length ++ W.all l (compileGuideMM ops numMasters)

/-- `GuidesCompiler._compile` — compilers/guides.py:11-21 -/
def compileGuides (ops : AngleOps) (numMasters : Nat) (d : MMGuides ops.Angle) : W :=
  compileGuideDir ops numMasters d.h ++ compileGuideDir ops numMasters d.v

/-! ### guide properties -/

/-- `GuidePropertyDict`; `none` = key absent — typing.py:209-212 -/
structure GuideProp where
  index : Int
  color : Option PyStr
  name : Option PyStr
  deriving DecidableEq, Repr

/-- `GuidePropertiesDict` — typing.py:215-217 -/
structure GuideProps where
  h : List GuideProp
  v : List GuideProp
  deriving DecidableEq, Repr

/-- hexadecimal digits of `n`, most significant first — parsers/guides.py:68-84 -/
def natHexAux : Nat → Nat → PyStr
  | 0, _ => []
  | fuel + 1, n => if n < 16 then [hexDigit n] else natHexAux fuel (n / 16) ++ [hexDigit (n % 16)]

/-- `"%06x" % n` for `n ≥ 0` — parsers/guides.py:68-84 -/
def hex06 (n : Nat) : PyStr :=
  if n < 16777216 then
    [hexDigit (n / 1048576), hexDigit (n / 65536 % 16), hexDigit (n / 4096 % 16),
     hexDigit (n / 256 % 16), hexDigit (n / 16 % 16), hexDigit (n % 16)]
  else natHexAux (n + 1) n

/-- `f"#{bgr[4:]}{bgr[2:4]}{bgr[:2]}"` — parsers/guides.py:76-78 -/
def colorFromBgr (bgr : PyStr) : PyStr := 35 :: (bgr.drop 4 ++ (bgr.drop 2).take 2 ++ bgr.take 2)

/-- `f"{rgb[5:]}{rgb[3:5]}{rgb[1:3]}"` — compilers/guides.py:30-34 -/
def bgrFromColor (rgb : PyStr) : PyStr := rgb.drop 5 ++ (rgb.drop 3).take 2 ++ (rgb.drop 1).take 2

/-- `int(s, 16)` for a string of hex digits; other strings are a ValueError here (Python also accepts
white space, a sign, `0x` and underscores, which is not modelled). — compilers/guides.py:28-37 -/
def intBase16 (s : PyStr) : Except PyErr Int :=
  if s = [] then .error .value
  else match s.mapM hexVal with
    | some ds => .ok ((ds.foldl (fun acc d => 16 * acc + d) 0 : Nat) : Int)
    | none => .error .value

/-- one iteration of the inner loop — parsers/guides.py:68-84 -/
def guidePropBody (acc : List GuideProp) : R (List GuideProp ⊕ List GuideProp) := do
  let index ← readValue
  if index = 0 then pure (.inr acc)
  else do
    let raw ← readValue
    let color := if raw > -1 then some (colorFromBgr (hex06 raw.toNat)) else none
    let name ← readStrWithLen
    pure (.inl (acc ++ [⟨index, color, if name = [] then none else some name⟩]))

/-- `GuidePropertiesParser._parse` — parsers/guides.py:64-86 -/
def parseGuideProps : R GuideProps := do
  let h ← R.whileTrue guidePropBody []
  let v ← R.whileTrue guidePropBody []
  pure ⟨h, v⟩

/-- one guide — compilers/guides.py:28-37 -/
def compileGuideProp (g : GuideProp) : W :=
  writeValue g.index ++
  (match g.color with
    | none => writeValue (-1)
    | some [] => writeValue (-1)
    | some (c :: cs) => W.withVal (intBase16 (bgrFromColor (c :: cs))) fun v => writeValueLong v false) ++
  writeStrWithLen g.name

/-- `GuidePropertiesCompiler._compile` — compilers/guides.py:24-38 -/
def compileGuideProps (d : GuideProps) : W :=
  (W.all d.h compileGuideProp ++ writeValue 0) ++ (W.all d.v compileGuideProp ++ writeValue 0)

end Verif

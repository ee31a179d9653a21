import Verif.Model.Mm
/-! Model of the small glyph-level entries in `parsers/glyph.py`, `compilers/glyph.py`: anchors, anchor
properties, GDEF data, origin, sketch, Unicode lists, links, mask metrics. -/
set_option autoImplicit false
namespace Verif

/-! ### anchors -/

/-- `MMAnchorDict`: one coordinate per master — typing.py:245-247 -/
structure MMAnchor where
  x : List Int
  y : List Int
  deriving DecidableEq, Repr

/-- one anchor — parsers/glyph.py:69-73 -/
def readAnchor (numMasters : Int) : R MMAnchor := do
  let ps ← R.forRange numMasters readPair
  pure ⟨ps.map Prod.fst, ps.map Prod.snd⟩

/-- `GlyphAnchorsParser._parse` — parsers/glyph.py:63-74 -/
def parseAnchors : R (List MMAnchor) := do
  let numAnchors ← readValue
  let numMasters ← readValue
  R.forRange numAnchors (readAnchor numMasters)

/-- `l[i]` followed by writing it; IndexError if there is no such element
— compilers/glyph.py:33-36 -/
def writeAt (l : List Int) (i : Nat) : W :=
  match l[i]? with
  | some v => writeValue v
  | none => .error .index

/-- one anchor — compilers/glyph.py:33-36 -/
def writeAnchor (numMasters : Nat) (a : MMAnchor) : W :=
  W.all (List.range numMasters) fun i => writeAt a.x i ++ writeAt a.y i

/-- `GlyphAnchorsCompiler._compile` — compilers/glyph.py:28-36; `numMasters` is `self.vfb.num_masters` -/
def compileAnchors (numMasters : Nat) (l : List MMAnchor) : W :=
  writeValue l.length false ++ (writeValue numMasters false ++ W.all l (writeAnchor numMasters))

/-- `AnchorPropertiesDict`; `none` = key absent — typing.py:12-14 -/
structure AnchorProps where
  hue : Option Int
  data : Option Int
  deriving DecidableEq, Repr

/-- one anchor — parsers/glyph.py:82-84 -/
def readAnchorProps : R AnchorProps := do
  let hue ← readValue
  let data ← readValue
  pure ⟨some hue, some data⟩

/-- `GlyphAnchorsSuppParser._parse` — parsers/glyph.py:77-85 -/
def parseAnchorsSupp : R (List AnchorProps) := do
  let num ← readValue
  R.forRange num readAnchorProps

/-- one anchor — compilers/glyph.py:42-44 -/
def writeAnchorProps (a : AnchorProps) : W := writeValue (a.hue.getD 0) false ++ writeValue (a.data.getD 0) false

/-- `GlyphAnchorsSuppCompiler._compile` — compilers/glyph.py:39-44 -/
def compileAnchorsSupp (l : List AnchorProps) : W := writeValue l.length false ++ W.all l writeAnchorProps

/-! ### GDEF -/

/-- `gdef_class_names` — __init__.py:16-22 -/
def gdefClassNames : List PyStr := [lit "unassigned", lit "base", lit "ligature", lit "mark", lit "component"]

/-- `AnchorDict`; `none` = key absent — typing.py:6-9 -/
structure GdefAnchor where
  name : Option PyStr
  x : Int
  y : Int
  deriving DecidableEq, Repr

/-- `GdefDict`; `none` = key absent (for `glyph_class` also the value `None`, compilers/glyph.py:49-50) -/
structure Gdef where
  glyphClass : Option PyStr
  anchors : Option (List GdefAnchor)
  carets : Option (List (Int × Int))
  otClasses : Option (List Int)
  deriving DecidableEq, Repr

/-- `gdef_class_names[i]`: a negative index counts from the end — parsers/glyph.py:92 -/
def gdefClassAt (i : Int) : Except PyErr PyStr :=
  if i < -5 then .error .index
  else match gdefClassNames[(if i < 0 then i + 5 else i).toNat]? with
    | some s => .ok s
    | none => .error .index

/-- one GDEF anchor — parsers/glyph.py:99-106 -/
def readGdefAnchor : R GdefAnchor := do
  let name ← readStrWithLen
  let x ← readValue
  let _ ← readValue
  let y ← readValue
  let _ ← readValue
  pure ⟨if name = [] then none else some name, x, y⟩

/-- `if l: d[k] = l` — parsers/glyph.py:88-125 -/
def unlessEmpty {α : Type} (l : List α) : Option (List α) := if l.isEmpty then none else some l

/-- `GlyphGDEFParser._parse` — parsers/glyph.py:88-125 -/
def parseGdef : R Gdef := do
  let c ← readValue
  let cn ← R.lift (gdefClassAt c)
  let numAnchors ← readValue
  let anchors ← R.forRange numAnchors readGdefAnchor
  let numCarets ← readValue
  let carets ← R.forRange numCarets readPair
  let numOt ← readValue
  let ot ← R.forRange numOt readValue
  pure ⟨if cn = lit "unassigned" then none else some cn, unlessEmpty anchors, unlessEmpty carets,
    if numOt > 0 then some ot else none⟩

/-- `gdef_class_names.index(c)` — compilers/glyph.py:49-54: ValueError for an unknown name -/
def gdefClassIndex (c : Option PyStr) : Except PyErr Int :=
  match c with
  | none => .ok 0
  | some s => match gdefClassNames.findIdx? (· == s) with
    | some i => .ok i
    | none => .error .value

/-- one GDEF anchor — compilers/glyph.py:58-62 (`write_str_with_len("")` for an absent name) -/
def writeGdefAnchor (a : GdefAnchor) : W :=
  writeStrWithLen (some (a.name.getD [])) ++ (writeValue a.x ++ (writeValue (-1) ++ (writeValue a.y ++ writeValue (-1))))

/-- `GlyphGDEFCompiler._compile` — compilers/glyph.py:47-74 -/
def compileGdef (d : Gdef) : W :=
  W.withVal (gdefClassIndex d.glyphClass) fun c =>
  writeValue c false ++
  ((writeValue (d.anchors.getD []).length false ++ W.all (d.anchors.getD []) writeGdefAnchor) ++
  ((writeValue (d.carets.getD []).length false ++ W.all (d.carets.getD []) fun p => writeValue p.1 ++ writeValue p.2) ++
  (writeValue (d.otClasses.getD []).length false ++ W.all (d.otClasses.getD []) fun v => writeValue v)))

/-! ### origin, sketch, Unicodes, links -/

/-- `GlyphOriginParser._parse` — parsers/glyph.py:128-132 (the dict as a pair x, y) -/
def parseOrigin : R (Int × Int) := do
  let x ← readI16
  let y ← readI16
  pure (x, y)
/-- `GlyphOriginCompiler._compile` — compilers/glyph.py:316-319 -/
def compileOrigin (p : Int × Int) : W := writeI16 p.1 ++ writeI16 p.2

/-- one item of a sketch — parsers/glyph.py:430 -/
def readTriple : R (Int × Int × Int) := do
  let a ← readValue
  let b ← readValue
  let c ← readValue
  pure (a, b, c)
/-- `GlyphSketchParser._parse` — parsers/glyph.py:426-432 -/
def parseSketch : R (List (Int × Int × Int)) := do
  let num ← readValue false
  R.forRange num readTriple
/-- one item of a sketch — compilers/glyph.py:325-328 -/
def writeTriple (t : Int × Int × Int) : W := writeValue t.1 ++ (writeValue t.2.1 ++ writeValue t.2.2)
/-- `GlyphSketchCompiler._compile` — compilers/glyph.py:322-328 -/
def compileSketch (l : List (Int × Int × Int)) : W := writeValue l.length false ++ W.all l writeTriple

/-- `GlyphUnicodeParser._parse` — parsers/glyph.py:435-441: `nbytes` is the size of the payload -/
def parseUnicodes : R (List Int) := fun s => R.rep (s.length / 2) readU16 s
/-- `GlyphUnicodesCompiler._compile` — compilers/glyph.py:331-334 -/
def compileUnicodes (l : List Int) : W := W.all l writeU16
/-- `GlyphUnicodeSuppParser._parse` — parsers/glyph.py:444-450 -/
def parseUnicodesSupp : R (List Int) := fun s => R.rep (s.length / 4) readU32 s
/-- `GlyphUnicodesSuppCompiler._compile` — compilers/glyph.py:337-340 -/
def compileUnicodesSupp (l : List Int) : W := W.all l writeU32

/-- `LinkDict` — typing.py:233-235 -/
structure Links where
  x : List (Int × Int)
  y : List (Int × Int)
  deriving DecidableEq, Repr

/-- one direction — parsers/glyph.py:457-461 -/
def readLinkDir : R (List (Int × Int)) := do
  let num ← readValue
  R.forRange num readPair
/-- `LinkParser._parse` — parsers/glyph.py:453-462: first `"y"`, then `"x"` -/
def parseLinks : R Links := do
  let y ← readLinkDir
  let x ← readLinkDir
  pure ⟨x, y⟩
/-- one direction — compilers/glyph.py:387-391 -/
def writeLinkDir (l : List (Int × Int)) : W := writeValue l.length ++ W.all l fun p => writeValue p.1 ++ writeValue p.2
/-- `LinksCompiler._compile` — compilers/glyph.py:384-391 -/
def compileLinks (d : Links) : W := writeLinkDir d.y ++ writeLinkDir d.x

/-! ### mask metrics -/

/-- `MaskMetricsParser._parse` — parsers/glyph.py:485-494 -/
def parseMaskMetrics : R (Int × Int) := do
  let x ← readI16
  let y ← readI16
  pure (x, y)
/-- `MaskMetricsCompiler._compile` — compilers/glyph.py:411-415 -/
def compileMaskMetrics (p : Int × Int) : W := writeI16 p.1 ++ writeI16 p.2

/-- `MaskMetricsMMParser._parse` — parsers/glyph.py:497-506; `numMasters` is `self.vfb.num_masters` -/
def parseMaskMetricsMM (numMasters : Nat) : R (List (Int × Int)) := R.forRange ((numMasters : Int) - 1) readPair
/-- `MaskMetricsMMCompiler._compile` — compilers/glyph.py:418-423 -/
def compileMaskMetricsMM (l : List (Int × Int)) : W := W.all l fun p => writeValue p.1 ++ writeValue p.2

end Verif

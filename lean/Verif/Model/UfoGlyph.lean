import Verif.Model.Table
import Verif.Model.UfoKerning
/-! Model of the glyphs in `ufo/builder.py`: how the entries of the file become glyphs with names.  Log messages are not
modelled.  Wrong shapes of data are `.error .type`. -/
set_option autoImplicit false
namespace Verif

/-- the options of `VfbToUfoBuilder` that matter for glyphs — ufo/builder.py:55-87; `vfbMinimal` is the option of the `Vfb` object -/
structure BuildOpts where
  minimal : Bool
  vfbMinimal : Bool
  pshints : Bool
  deriving DecidableEq, Repr

/-- a bitmap in the glyph lib — ufo/builder.py:224-250 ("bitDepth" is always 1) -/
structure UfoBitmap where
  imageData : List (List Int)
  horiAdvance : Int
  vertAdvance : Int
  width : Int
  height : Int
  horiBearingX : Int
  horiBearingY : Int
  ppemX : Int
  ppemY : Int
  deriving DecidableEq, Repr

/-- one bitmap of `set_glyph_bitmaps` — ufo/builder.py:227-249 -/
def ufoBitmap (d : GlyphBitmap) : UfoBitmap :=
  { imageData := d.bitmap.data.reverse
    horiAdvance := d.adv.1
    vertAdvance := d.adv.2
    width := d.size_pixels.1
    height := d.size_pixels.2
    horiBearingX := d.origin.1
    horiBearingY := d.size_pixels.2 + d.origin.2
    ppemX := d.ppm
    ppemY := d.ppm }

/-- `VfbToUfoGlyph` — ufo/glyph.py:23-47: what the entries of the file set.  `mark` is the hue from which
"public.markColor" is made (ufo/glyph.py:114-117), `userData`, `background`, `bitmaps` and `instructions` are the items of `lib`. -/
structure BGlyph (A ASM : Type) where
  name : PyStr
  unicodes : List Int
  links : Links
  mark : Option Int
  userData : Option PyStr
  note : Option PyStr
  anchors : List GdefAnchor
  mmAnchors : Option (List MMAnchor)
  guideProps : GuideProps
  background : Option BackgroundImage
  bitmaps : Option (List UfoBitmap)
  maskNodes : List MMNode
  maskMetrics : List (Int × Int)
  guides : Option (MMGuides A)
  hintsH : List (List Hint)
  hintsV : List (List Hint)
  hintmasks : List (PyStr × Int)
  metrics : List Point
  nodes : List MMNode
  components : List Component
  tth : Option (List Instruction)
  instructions : Option ASM

/-- the attributes of the builder for glyphs — ufo/builder.py:102-111 -/
structure GlyphPart (A ASM : Type) where
  current : Option (BGlyph A ASM)
  masters : List (PyStr × BGlyph A ASM)
  order : List PyStr
  kerning : MMKerning

section
variable (ops : AngleOps) (asm : AsmOps)

/-- `build_mm_glyph`, the new glyph — ufo/builder.py:178-212, ufo/glyph.py:106-112 -/
def newGlyph (o : BuildOpts) (d : Glyph ops.Angle asm.Asm) : Except PyErr (BGlyph ops.Angle asm.Asm) :=
  match d.name, d.metrics, d.nodes with
  | some name, some metrics, some nodes =>
    .ok {
      name := name
      unicodes := []
      links := ⟨[], []⟩
      mark := none
      userData := none
      note := none
      anchors := []
      mmAnchors := none
      guideProps := ⟨[], []⟩
      background := none
      bitmaps := none
      maskNodes := []
      maskMetrics := []
      guides := if o.minimal then none else d.guides
      hintsH := if o.pshints then (d.hints.map Hints.h).getD [] else []
      hintsV := if o.pshints then (d.hints.map Hints.v).getD [] else []
      hintmasks := if o.pshints then (d.hints.bind Hints.hintmasks).getD [] else []
      metrics := metrics
      nodes := nodes
      components := d.components.getD []
      tth := d.tth
      instructions := (d.imported.bind Imported.instructions).bind fun i => if asm.isEmpty i then none else some i }
  | _, _, _ => .error .key

/-- `build_mm_glyph`, the kerning: the keys are the name of the glyph in the file and the index of the right glyph
— ufo/builder.py:194-198 -/
def addKerning (k : MMKerning) (name : PyStr) (values : List (Int × List Int)) : MMKerning :=
  values.foldl (fun k x => dictSet k (name, x.1) x.2) k

/-- `for i in range(255): n = f"{name}#{i}"; if n not in self.glyph_masters` — ufo/builder.py:455-463 -/
def freeGlyphName {α : Type} (masters : List (PyStr × α)) (name : PyStr) : Option PyStr :=
  ((List.range 255).find? fun i => !(dictGet masters (name ++ lit "#" ++ natDec i)).isSome).map fun i => name ++ lit "#" ++ natDec i

/-- the glyph that is complete when the next one begins — ufo/builder.py:452-469 -/
def fileGlyph (st : GlyphPart ops.Angle asm.Asm) : GlyphPart ops.Angle asm.Asm :=
  match st.current with
  | none => st
  | some g =>
    if (dictGet st.masters g.name).isSome then
      match freeGlyphName st.masters g.name with
      | some n => { st with masters := dictSet st.masters n g, order := st.order ++ [n] }
      | none => st
    else { st with masters := dictSet st.masters g.name g, order := st.order ++ [g.name] }

/-- the entry "Glyph" — ufo/builder.py:451-470 -/
def glyphEntry (o : BuildOpts) (st : GlyphPart ops.Angle asm.Asm) (d : Glyph ops.Angle asm.Asm) :
    Except PyErr (GlyphPart ops.Angle asm.Asm) :=
  newGlyph ops asm o d >>= fun g =>
    .ok { fileGlyph ops asm st with
      current := some g
      kerning := addKerning st.kerning g.name (d.kerning.getD []) }

/-- `set_glyph_background`: the preview is deleted — ufo/builder.py:218-222 -/
def withoutPreview (d : BackgroundImage) : BackgroundImage := { d with bitmap := { d.bitmap with preview := [] } }

/-- an entry that belongs to the current glyph — ufo/builder.py:471-521.  `none`: the entry does not belong to a glyph, or it is
GDEF data without anchors, which needs no current glyph; wrong data: `type` -/
def glyphPart (id : Int) (d : Decompiled ops.Angle asm.Asm) : Option (BGlyph ops.Angle asm.Asm → Except PyErr (BGlyph ops.Angle asm.Asm)) :=
  if id = 2023 then some fun g => .ok g                                       -- VSB
  else if id = 1250 ∨ id = 1253 then some fun g =>                            -- unicodes, UnicodesNonBMP
    match d with
    | .ints l => .ok { g with unicodes := g.unicodes ++ l }
    | _ => .error .type
  else if id = 2008 then some fun g =>                                        -- Links
    match d with
    | .links l => .ok { g with links := l }
    | _ => .error .type
  else if id = 2012 then some fun g =>                                        -- mark
    match d with
    | .int v => .ok { g with mark := some v }
    | _ => .error .type
  else if id = 2015 then some fun g =>                                        -- customdata
    match d with
    | .str s => .ok { g with userData := some s }
    | _ => .error .type
  else if id = 2017 then some fun g =>                                        -- note
    match d with
    | .str s => .ok { g with note := some s }
    | _ => .error .type
  else if id = 2018 then                                                      -- GDEFData
    match d with
    | .gdef x => x.anchors.map fun l => fun g => .ok { g with anchors := l }
    | _ => some fun _ => .error .type
  else if id = 2029 then some fun g =>                                        -- AnchorsMM
    match d with
    | .anchors l => .ok { g with mmAnchors := some l }
    | _ => .error .type
  else if id = 2031 then some fun g =>                                        -- GuideProperties
    match d with
    | .guideProps p => .ok { g with guideProps := p }
    | _ => .error .type
  else if id = 2007 then some fun g =>                                        -- image
    match d with
    | .background b => .ok { g with background := some (withoutPreview b) }
    | _ => .error .type
  else if id = 2013 then some fun g =>                                        -- Bitmaps
    match d with
    | .bitmaps l => .ok { g with bitmaps := some (l.map ufoBitmap) }
    | _ => .error .type
  else if id = 2009 then some fun g =>                                        -- mask
    match d with
    | .mask m => .ok { g with maskNodes := m.nodes }
    | _ => .error .type
  else if id = 2011 then some fun g =>                                        -- MaskMetrics
    match d with
    | .pair p => .ok { g with maskMetrics := g.maskMetrics ++ [p] }
    | _ => .error .type
  else if id = 2028 then some fun g =>                                        -- MaskMetricsMM
    match d with
    | .pairs l => .ok { g with maskMetrics := g.maskMetrics ++ l }
    | _ => .error .type
  else none

/-- the ids that are skipped in minimal mode — constants.py:343-355 -/
def minimalKeys : List Int := [1294, 1295, 2025, 2013, 2031, 2007, 2012, 2009, 2017]
/-- `skip_keys` — ufo/builder.py:418-430 -/
def skipKeys (o : BuildOpts) : List Int := [1500, 1501, 1046, 1133, 2020, 2010, 2027] ++ if o.vfbMinimal then minimalKeys else []

/-- the effect of an entry on the glyphs — ufo/builder.py:432-521.  (No glyph entry is in the mapping of the font info.) -/
def glyphStep (o : BuildOpts) (st : GlyphPart ops.Angle asm.Asm) (e : Int × Option (Decompiled ops.Angle asm.Asm)) :
    Except PyErr (GlyphPart ops.Angle asm.Asm) :=
  if e.1 ∈ skipKeys o then .ok st
  else match e.2 with
    | none => .ok st
    | some d =>
      if e.1 = 2001 then
        match d with
        | .glyph g => glyphEntry ops asm o st g
        | _ => .error .type
      else match glyphPart ops asm e.1 d with
        | none => .ok st
        | some f =>
          match st.current with
          | none => .error .assertion
          | some g => f g >>= fun g => .ok { st with current := some g }

/-- the last glyph — ufo/builder.py:662-665 -/
def lastGlyph (st : GlyphPart ops.Angle asm.Asm) : GlyphPart ops.Angle asm.Asm :=
  match st.current with
  | none => st
  | some g => { st with masters := dictSet st.masters g.name g, order := st.order ++ [g.name] }

/-- the glyphs after `build()` — ufo/builder.py:416-666 -/
def buildGlyphs (o : BuildOpts) (es : List (Int × Option (Decompiled ops.Angle asm.Asm))) : Except PyErr (GlyphPart ops.Angle asm.Asm) :=
  es.foldlM (glyphStep ops asm o) ⟨none, [], [], []⟩ >>= fun st => .ok (lastGlyph ops asm st)

/-- what `build()` leaves in the entry: the hint masks are deleted from the glyph, the preview from the background image
— ufo/builder.py:190-192, 220-221 -/
def afterBuild (o : BuildOpts) (e : Int × Option (Decompiled ops.Angle asm.Asm)) : Int × Option (Decompiled ops.Angle asm.Asm) :=
  if e.1 ∈ skipKeys o then e
  else match e.2 with
    | some (.glyph g) =>
      if e.1 = 2001 ∧ o.pshints then (e.1, some (.glyph { g with hints := g.hints.map fun h => { h with hintmasks := none } })) else e
    | some (.background b) => if e.1 = 2007 then (e.1, some (.background (withoutPreview b))) else e
    | _ => e

end
end Verif

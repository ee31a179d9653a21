import Verif.Model.UfoMasterGlyph
import Verif.Model.UfoStems
import Verif.Model.UfoFeatures
import Verif.Model.UfoInfo
import Verif.Model.UfoMasterInfo
/-! Model of the whole conversion in `ufo/builder.py`: `build` and `get_ufo_masters`.  The parts of `build` that do not depend on each
other are separate functions (`buildGlyphs`, `buildMasters`, `buildFeatures`, `buildInfo`); which of two exceptions is raised first is
not modelled.  The classes of ufoLib2 only hold the values. -/
set_option autoImplicit false
namespace Verif

/-- the TrueType part of the builder — ufo/builder.py:113-117: stems and zones; `current` is the `zone_names` that the `TTGlyphHints`
of the current glyph refers to, `captured` the same for the glyphs in `glyph_masters` -/
structure TtPart where
  stems : StemTables
  zones : ZoneTables
  current : List (PyStr × List PyStr)
  captured : List (PyStr × List (PyStr × List PyStr))

/-- at the start — ufo/builder.py:113-117 -/
def noTt : TtPart := ⟨⟨⟨[], []⟩, ⟨[], []⟩⟩, ⟨[], [], []⟩, [], []⟩

section
variable (ops : AngleOps) (deg : ops.Angle → Rat) (asm : AsmOps) (fmt : Int → PyStr)

/-- the key for the glyph that is complete when the next one begins — ufo/builder.py:452-469 -/
def filedKey (st : GlyphPart ops.Angle asm.Asm) : Option PyStr :=
  match st.current with
  | none => none
  | some g => if (dictGet st.masters g.name).isSome then freeGlyphName st.masters g.name else some g.name

/-- an entry for stems or zones — ufo/builder.py:538-553, 548-553, 556, 607-608 -/
def ttEntry (st : TtPart) (id : Int) (d : Decompiled ops.Angle asm.Asm) : Except PyErr TtPart :=
  if id = 1255 then
    match d with
    | .ttZones d => setZones st.zones d >>= fun z => .ok { st with zones := z }
    | _ => .error .type
  else if id = 1273 then
    match d with
    | .ttDeltas d => setZoneDeltas st.zones d >>= fun z => .ok { st with zones := z }
    | _ => .error .type
  else if id = 1268 then
    match d with
    | .ttPpems d => stemEntry st.stems (.ppms d) >>= fun s => .ok { st with stems := s }
    | _ => .error .type
  else if id = 1524 then
    match d with
    | .ttPpems d => stemEntry st.stems (.ppms1 d) >>= fun s => .ok { st with stems := s }
    | _ => .error .type
  else if id = 1269 then
    match d with
    | .ttStems d => stemEntry st.stems (.stems d) >>= fun s => .ok { st with stems := s }
    | _ => .error .type
  else .ok st

/-- a glyph begins: the previous one has been filed under its key, the new one refers to the zone names of now — ufo/builder.py:206-208,
452-470 -/
def ttGlyph (key : Option PyStr) (st : TtPart) : TtPart :=
  { st with
    current := st.zones.names
    captured := match key with
      | none => st.captured
      | some k => dictSet st.captured k st.current }

/-- an entry — ufo/builder.py:432-450; `g` are the glyphs before it -/
def ttStep (o : BuildOpts) (g : GlyphPart ops.Angle asm.Asm) (st : TtPart) (e : Int × Option (Decompiled ops.Angle asm.Asm)) :
    Except PyErr TtPart :=
  if e.1 ∈ skipKeys o then .ok st
  else match e.2 with
    | none => .ok st
    | some d => if e.1 = 2001 then .ok (ttGlyph (filedKey ops asm g) st) else ttEntry ops asm st e.1 d

/-- glyphs and TrueType part together — ufo/builder.py:416-666 -/
def glyphTtStep (o : BuildOpts) (st : GlyphPart ops.Angle asm.Asm × TtPart) (e : Int × Option (Decompiled ops.Angle asm.Asm)) :
    Except PyErr (GlyphPart ops.Angle asm.Asm × TtPart) :=
  glyphStep ops asm o st.1 e >>= fun g =>
  ttStep ops asm o st.1 st.2 e >>= fun t =>
  .ok (g, t)

/-- glyphs and TrueType part after `build()`, up to line 666 — ufo/builder.py:416-666 -/
def buildGlyphsTt (o : BuildOpts) (es : List (Int × Option (Decompiled ops.Angle asm.Asm))) :
    Except PyErr (GlyphPart ops.Angle asm.Asm × TtPart) :=
  es.foldlM (glyphTtStep ops asm o) (⟨none, [], [], []⟩, noTt) >>= fun st =>
  .ok (lastGlyph ops asm st.1, ttGlyph (st.1.current.map BGlyph.name) st.2)

/-- the labels before any is made — ufo/builder.py:416-679 -/
def freshLabels (st : GlyphPart ops.Angle asm.Asm) : LabelFont :=
  ⟨st.order, st.masters.map fun e => (e.1, ⟨e.2.nodes.length, e.2.components.map Component.gid, [], []⟩)⟩

/-- put `x` before the first glyph that is not less than it — ufo/builder.py:410 -/
def insertGlyph {A ASM : Type} (x : PyStr × BGlyph A ASM) : List (PyStr × BGlyph A ASM) → List (PyStr × BGlyph A ASM)
  | [] => [x]
  | y :: l => if glyphLt (y.2.components.length, y.2.name) (x.2.components.length, x.2.name) then y :: insertGlyph x l else x :: y :: l

/-- `sorted(self.glyph_masters.values())`, a stable sort — ufo/builder.py:410 -/
def sortedGlyphs {A ASM : Type} (l : List (PyStr × BGlyph A ASM)) : List (PyStr × BGlyph A ASM) := l.foldr insertGlyph []

/-- what the `TTGlyphHints` of a glyph refers to — ufo/builder.py:409-414 -/
def tthEnv (t : TtPart) (key : PyStr) : TthEnv :=
  { zone := listZone ((dictGet t.captured key).getD [])
    stemsH := t.stems.h.stems.map UfoStem.name
    stemsV := t.stems.v.stems.map UfoStem.name }

/-- `build_tt_glyph_lib` — ufo/builder.py:409-414: the commands of the glyphs, by key -/
def ttGlyphLib (depth : Nat) (t : TtPart) : LabelFont → List (PyStr × BGlyph ops.Angle asm.Asm) →
    Except PyErr (List (PyStr × List TthCommand) × LabelFont)
  | font, [] => .ok ([], font)
  | font, (key, g) :: l =>
    match g.tth with
    | none => ttGlyphLib depth t font l
    | some is =>
      tthCommands (glyphLabeler depth key) (tthEnv t key) font is >>= fun r =>
      ttGlyphLib depth t r.2 l >>= fun rs =>
      .ok ((key, r.1) :: rs.1, rs.2)

/-- the builder after `build()` — ufo/builder.py:54-118, 416-679 -/
structure Built (A ASM : Type) where
  glyphs : GlyphPart A ASM
  tt : TtPart
  cmds : List (PyStr × List TthCommand)
  labels : LabelFont
  masters : MastersPart A
  features : FeaturesPart
  info : InfoPart ASM

/-- `VfbToUfoBuilder.build` — ufo/builder.py:416-679 -/
def build (o : BuildOpts) (depth : Nat) (es : List (Int × Option (Decompiled ops.Angle asm.Asm))) : Except PyErr (Built ops.Angle asm.Asm) :=
  buildGlyphsTt ops asm o es >>= fun g =>
  ttGlyphLib ops asm depth g.2 (freshLabels ops asm g.1) (sortedGlyphs g.1.masters) >>= fun c =>
  buildMasters ops asm o es >>= fun m =>
  buildFeatures ops asm o es >>= fun f =>
  buildInfo fmt ops asm o es >>= fun i =>
  .ok ⟨g.1, g.2, c.1, c.2, m, f, i⟩

/-- The lib of the font — ufo/builder.py:354-407, 623-628, 666-677, 838-843.  Empty lists stand for absent items; "com.fontlab.v2.tth"
is `tthNumbers`, `stems` and `zones`, and absent if all three are empty. -/
structure FontLib (ASM : Type) where
  glyphOrder : List PyStr
  groupOrder : List PyStr
  keyGlyphs : List (PyStr × PyStr)
  userData : Option PyStr
  metricsFlags : Option (List (PyStr × (Int × Int × Int)))
  tthNumbers : List (PyStr × Int)
  stems : List (PyStr × StemData)
  zones : List (PyStr × UfoZone)
  tt : Option (List (PyStr × LibVal ASM))

/-- A UFO; `background` is the layer "public.background" (absent if empty).
— ufo/builder.py:750-823 -/
structure UfoFont (ASM : Type) where
  features : PyStr
  groups : Groups
  info : Attrs
  kerning : List ((PyStr × PyStr) × Int)
  lib : FontLib ASM
  glyphs : List (PyStr × UfoGlyph ASM)
  background : List (PyStr × (List UfoContour × (Int × Int)))

/-- the options of the conversion — ufo/builder.py:55-64 -/
structure UfoOpts where
  build : BuildOpts
  fea : FeaOpts
  base64 : Bool

/-- the glyphs of a master — ufo/builder.py:770-786 -/
def masterGlyphs (o : UfoOpts) (depth : Nat) (b : Built ops.Angle asm.Asm) (master : Nat) :
    LabelFont → List (PyStr × BGlyph ops.Angle asm.Asm) → Except PyErr (List (PyStr × UfoGlyph asm.Asm) × LabelFont)
  | font, [] => .ok ([], font)
  | font, (key, g) :: l =>
    masterGlyph ops deg asm o.build o.base64 depth b.glyphs.order font key g ((dictGet b.cmds key).getD []) master >>= fun r =>
    masterGlyphs o depth b master r.2 l >>= fun rs =>
    .ok ((key, r.1) :: rs.1, rs.2)

/-- the background layer — ufo/builder.py:788-809: the glyphs with contours in the mask -/
def backgroundLayer {ASM : Type} (minimal : Bool) (glyphs : List (PyStr × UfoGlyph ASM)) : List (PyStr × (List UfoContour × (Int × Int))) :=
  if minimal then []
  else (glyphs.filter fun e => !e.2.maskContours.isEmpty).map fun e => (e.1, (e.2.maskContours, e.2.maskMetrics))

/-- the lib of the font — ufo/builder.py:750-823 -/
def fontLib (b : Built ops.Angle asm.Asm) (s : SharedData) : FontLib asm.Asm :=
  { glyphOrder := b.glyphs.order
    groupOrder := s.groupOrder
    keyGlyphs := s.keyGlyphs
    userData := b.info.userData
    metricsFlags := b.info.metricsFlags
    tthNumbers := b.info.tth
    stems := stemsLib b.tt.stems
    zones := b.tt.zones.zones
    tt := b.info.tt }

/-- `get_ufo_master(index)` — ufo/builder.py:750-823: the UFO, and the point labels made so far -/
def ufoMaster (o : UfoOpts) (depth : Nat) (b : Built ops.Angle asm.Asm) (s : SharedData) (font : LabelFont) (master : Nat) :
    Except PyErr (UfoFont asm.Asm × LabelFont) :=
  s.kerning.masterKerning master >>= fun kerning =>
  masterInfo ops deg o.build b.masters b.info.attrs master >>= fun info =>
  masterGlyphs ops deg asm o depth b master font b.glyphs.masters >>= fun r =>
  .ok (
    { features := s.text
      groups := s.groups
      info := info
      kerning := kerning
      lib := fontLib ops asm b s
      glyphs := r.1
      background := backgroundLayer o.build.minimal r.1 }, r.2)

/-- the loop over the masters — ufo/builder.py:876-877 -/
def ufoLoop (o : UfoOpts) (depth : Nat) (b : Built ops.Angle asm.Asm) (s : SharedData) :
    LabelFont → List Nat → Except PyErr (List (UfoFont asm.Asm) × LabelFont)
  | font, [] => .ok ([], font)
  | font, i :: is =>
    ufoMaster ops deg asm o depth b s font i >>= fun r =>
    ufoLoop o depth b s r.2 is >>= fun rs =>
    .ok (r.1 :: rs.1, rs.2)

/-- `get_ufo_masters()` — ufo/builder.py:825-878 -/
def ufoMasters (o : UfoOpts) (depth : Nat) (b : Built ops.Angle asm.Asm) : Except PyErr (List (UfoFont asm.Asm)) :=
  sharedData o.fea o.build.minimal b.features b.glyphs.order b.glyphs.kerning >>= fun s =>
  ufoLoop ops deg asm o depth b s b.labels (List.range b.masters.masters.length) >>= fun r =>
  .ok r.1

/-- the conversion: `VfbToUfoBuilder(vfb, …)` and `get_ufo_masters()`; `depth` is the recursion limit of Python
— ufo/builder.py:825-878 -/
def convert (o : UfoOpts) (depth : Nat) (es : List (Int × Option (Decompiled ops.Angle asm.Asm))) : Except PyErr (List (UfoFont asm.Asm)) :=
  build ops asm fmt o.build depth es >>= ufoMasters ops deg asm o depth

end
end Verif

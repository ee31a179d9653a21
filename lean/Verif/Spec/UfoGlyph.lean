import Verif.Model.UfoGlyph
/-! Specification vocabulary for C64–C66: which entries of the file make which glyph of the UFO. -/
set_option autoImplicit false
namespace Verif.Spec
open Verif

/-- a stored bitmap as it appears in the UFO: its rows from the other end, the vertical bearing from the top -/
structure BitmapFrom (d : GlyphBitmap) (u : UfoBitmap) : Prop where
  rows : u.imageData.length = d.bitmap.data.length ∧
    ∀ i j : Nat, i + j + 1 = d.bitmap.data.length → u.imageData[i]? = d.bitmap.data[j]?
  advance : (u.horiAdvance, u.vertAdvance) = d.adv
  size : (u.width, u.height) = d.size_pixels
  bearing : u.horiBearingX = d.origin.1 ∧ u.horiBearingY = d.origin.2 + d.size_pixels.2
  ppem : u.ppemX = d.ppm ∧ u.ppemY = d.ppm

/-- the background image is the stored one without its preview -/
structure BackgroundFrom (d u : BackgroundImage) : Prop where
  origin : u.origin = d.origin
  units : u.size_units = d.size_units
  pixels : u.size_pixels = d.size_pixels
  data : u.bitmap.data = d.bitmap.data
  preview : u.bitmap.preview = []

section
variable (ops : AngleOps) (asm : AsmOps)

/-- an entry of the file after decompiling: id and data -/
abbrev FEntry := Int × Option (Decompiled ops.Angle asm.Asm)

/-- the glyph of a "Glyph" entry -/
def glyphOf (e : FEntry ops asm) : Option (Glyph ops.Angle asm.Asm) :=
  if e.1 = 2001 then
    match e.2 with
    | some (.glyph g) => some g
    | _ => none
  else none

/-- The glyphs of the file, in order, each with the entries between it and the next glyph. -/
def blocks : List (FEntry ops asm) → List (Glyph ops.Angle asm.Asm × List (FEntry ops asm))
  | [] => []
  | e :: es =>
    match glyphOf ops asm e with
    | some g => (g, es.takeWhile fun e => (glyphOf ops asm e).isNone) :: blocks es
    | none => blocks es

/-- The entries that are never converted, and those that are not converted when the file is read in the minimal mode: global guides
and their properties, glyph origins, bitmaps, guide properties, images, marks, masks, notes. -/
def ignoredIds (o : BuildOpts) : List Int :=
  [1500, 1501, 1046, 1133, 2020, 2010, 2027] ++ if o.vfbMinimal then [1294, 1295, 2025, 2013, 2031, 2007, 2012, 2009, 2017] else []

/-- all data of the entries with this id that are not ignored -/
def dataOf (o : BuildOpts) (es : List (FEntry ops asm)) (id : Int) : List (Decompiled ops.Angle asm.Asm) :=
  if id ∈ ignoredIds o then [] else es.filterMap fun e => if e.1 = id then e.2 else none

/-- the data of the last entry with this id, or the default if there is no such entry -/
def LastOr {α : Type} (l : List (Decompiled ops.Angle asm.Asm)) (wrap : α → Decompiled ops.Angle asm.Asm) (default value : α) : Prop :=
  (l = [] ∧ value = default) ∨ l.getLast? = some (wrap value)

/-- the same for a value that need not be there -/
def LastIs {α β : Type} (l : List (Decompiled ops.Angle asm.Asm)) (wrap : α → Decompiled ops.Angle asm.Asm) (f : α → β) (value : Option β) : Prop :=
  (l = [] ∧ value = none) ∨ ∃ x, l.getLast? = some (wrap x) ∧ value = some (f x)

/-- the same with a relation between the stored value and the value made from it -/
def LastRel {α β : Type} (l : List (Decompiled ops.Angle asm.Asm)) (wrap : α → Decompiled ops.Angle asm.Asm) (rel : α → β → Prop)
    (value : Option β) : Prop :=
  (l = [] ∧ value = none) ∨ ∃ x y, l.getLast? = some (wrap x) ∧ value = some y ∧ rel x y

/-- the code points of the entries "unicodes" and "Glyph Unicode Non-BMP" in the order of the file -/
def codePoints (es : List (FEntry ops asm)) : List Int :=
  es.flatMap fun e => if e.1 = 1250 ∨ e.1 = 1253 then
      match e.2 with
      | some (.ints l) => l
      | _ => []
    else []

/-- the metrics of the mask: of the first master from one entry, of the others from another -/
def maskMetricsOf (es : List (FEntry ops asm)) : List (Int × Int) :=
  es.flatMap fun e =>
    match e.2 with
    | some (.pair p) => if e.1 = 2011 then [p] else []
    | some (.pairs l) => if e.1 = 2028 then l else []
    | _ => []

/-- the anchors of the GDEF entries that have got any -/
def gdefAnchors (es : List (FEntry ops asm)) : List (List GdefAnchor) :=
  es.filterMap fun e => if e.1 = 2018 then
      match e.2 with
      | some (.gdef x) => x.anchors
      | _ => none
    else none

/-- The glyph of the builder holds the data of one block of the file, and nothing else. -/
structure Describes (o : BuildOpts) (b : Glyph ops.Angle asm.Asm × List (FEntry ops asm)) (g : BGlyph ops.Angle asm.Asm) : Prop where
  name : b.1.name = some g.name
  metrics : b.1.metrics = some g.metrics
  nodes : b.1.nodes = some g.nodes
  components : g.components = b.1.components.getD []
  tth : g.tth = b.1.tth
  instructions : ∀ i, g.instructions = some i ↔ asm.isEmpty i = false ∧ ∃ imp, b.1.imported = some imp ∧ imp.instructions = some i
  guides : g.guides = if o.minimal then none else b.1.guides
  hints : if o.pshints then
      (b.1.hints = none ∧ g.hintsH = [] ∧ g.hintsV = [] ∧ g.hintmasks = []) ∨
      ∃ h, b.1.hints = some h ∧ g.hintsH = h.h ∧ g.hintsV = h.v ∧ g.hintmasks = h.hintmasks.getD []
    else g.hintsH = [] ∧ g.hintsV = [] ∧ g.hintmasks = []
  unicodes : g.unicodes = codePoints ops asm b.2
  links : LastOr ops asm (dataOf ops asm o b.2 2008) .links ⟨[], []⟩ g.links
  mark : LastIs ops asm (dataOf ops asm o b.2 2012) .int id g.mark
  userData : LastIs ops asm (dataOf ops asm o b.2 2015) .str id g.userData
  note : LastIs ops asm (dataOf ops asm o b.2 2017) .str id g.note
  anchors : g.anchors = (gdefAnchors ops asm b.2).getLast?.getD []
  mmAnchors : LastIs ops asm (dataOf ops asm o b.2 2029) .anchors id g.mmAnchors
  guideProps : LastOr ops asm (dataOf ops asm o b.2 2031) .guideProps ⟨[], []⟩ g.guideProps
  background : LastRel ops asm (dataOf ops asm o b.2 2007) .background BackgroundFrom g.background
  bitmaps : LastRel ops asm (dataOf ops asm o b.2 2013) .bitmaps (List.Forall₂ BitmapFrom) g.bitmaps
  maskNodes : (dataOf ops asm o b.2 2009 = [] ∧ g.maskNodes = []) ∨
    ∃ m, (dataOf ops asm o b.2 2009).getLast? = some (.mask m) ∧ g.maskNodes = m.nodes
  maskMetrics : g.maskMetrics = maskMetricsOf ops asm b.2

/-- the entries that belong to a glyph -/
def glyphPartIds : List Int := [2023, 1250, 1253, 2008, 2012, 2015, 2017, 2018, 2029, 2031, 2007, 2013, 2009, 2011, 2028]

/-- the data of the entry are of the type that the table of entries assigns to the id -/
def WellTyped (e : FEntry ops asm) : Prop :=
  ∀ k d, kindOf e.1 = some k → e.2 = some d → ((k.cls ops asm).proj d).isSome

/-- the name of the glyph has got this name in the UFO: its own, or its own with a number -/
def NameFrom (own final : PyStr) : Prop := final = own ∨ ∃ i, i < 255 ∧ final = own ++ lit "#" ++ natDec i

end
end Verif.Spec

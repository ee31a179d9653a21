import Verif.Spec.Table
import Verif.Spec.Text
import Verif.Spec.Bitmap
import Verif.Spec.Options
import Verif.Spec.Ps
import Verif.Spec.Guides
/-! Specification vocabulary for C100 and C101: the data a user may put into an entry, for each class of entries, and fonts that a
user may put together. -/
set_option autoImplicit false
namespace Verif.Spec
open Verif

section
variable (ops : AngleOps) (asm : AsmOps)

/-- The data that may be put into an entry so that they are read back as they are.  `ctx` are the settings of the font (number of
masters, stem counts, platform). -/
def Storable (ctx : Ctx) : Kind → Decompiled ops.Angle asm.Asm → Prop
  -- raw data: hexadecimal digits as they are displayed
  | .hex, .str s => ∃ b : Bytes, s = hexStr b
  | .stringHex, .str s => s = []
  -- text: Windows-1252, not beginning or ending with NUL
  | .string, .str s => IsLatin s ∧ NoOuterNul s
  | .vendor, .str s => IsLatin s ∧ NoOuterNul s
  | .flVersion, .flVersion d => (d.platform = lit "windows" ∨ d.platform = lit "macos") ∧ d.version.length = 4 ∧
      (∀ b ∈ d.version, 0 ≤ b ∧ b < 256) ∧ IsInt32 d.owner
  | .glyphEncoding, .encoding d => (0 ≤ d.1 ∧ d.1 ≤ 65535) ∧ IsLatin d.2
  -- numbers
  | .int16, .int v => 0 ≤ v ∧ v < 65536
  | .sint16, .int v => -32768 ≤ v ∧ v < 32768
  | .sint32, .int v => IsInt32 v
  | .double, .double _ => True
  | .doubleList, .doubles _ => True
  | .intList, .ints l => ∀ v ∈ l, 0 ≤ v ∧ v < 4294967296
  | .panose, .ints l => l.length = 10 ∧ ∀ v ∈ l, -128 ≤ v ∧ v < 128
  | .valueList, .ints l => ∀ v ∈ l, IsInt32 v
  | .valueListCount, .ints l => l.length ≤ 2147483647 ∧ ∀ v ∈ l, IsInt32 v
  | .unicodeRanges, .ints l => l.Pairwise (· < ·) ∧ ∀ b ∈ l, 0 ≤ b ∧ b < 128
  -- PostScript
  | .psGlobalOptions, .bitOptions d => OptionsOk psGlobalOptions 16 d
  | .psGlyphOptions, .bitOptions d => OptionsOk psGlyphOptions 32 d
  | .psInfo, .psInfo d => PSInfoOk d
  -- TrueType
  | .gasp, .gasp l => ∀ r ∈ l, IsU16 r.maxPpem ∧ IsU16 r.flags
  | .ttInfo, .ttInfo d => TTInfoFits d
  | .vdmx, .vdmx l => l.length < 2147483648 ∧ ∀ r ∈ l, IsInt32 r.pelHeight ∧ IsInt32 r.max ∧ IsInt32 r.min
  | .ttPpems, .ttPpems d => ∀ l ∈ [d.ttStemsV, d.ttStemsH], PpemsFit [2, 3, 4, 5] l ∧ PpemsNormal [2, 3, 4, 5] l
  | .ttPpems23, .ttPpems d => ∀ l ∈ [d.ttStemsV, d.ttStemsH], PpemsFit [2, 3] l ∧ PpemsNormal [2, 3] l
  -- as many stems as the TrueType stems entry has
  | .ttPpems1, .ttPpems d => (∀ l ∈ [d.ttStemsV, d.ttStemsH], PpemsFit [1] l ∧ PpemsNormal [1] l) ∧
      ctx.ttStemsV_count = d.ttStemsV.length ∧ ctx.ttStemsH_count = d.ttStemsH.length
  | .ttStems, .ttStems d => ∀ l ∈ [d.ttStemsV, d.ttStemsH], l.length < 2147483648 ∧ ∀ s ∈ l, TTStemFits s ∧ s.round.map Prod.fst = [6]
  | .ttZones, .ttZones d => ∃ t b, d = ⟨some t, some b⟩ ∧ TTSideFits (some t) ∧ TTSideFits (some b)
  | .ttDeltas, .ttDeltas d => DeltasFit d
  -- tables
  | .nameRecords, .names l => l.length < 2147483648 ∧ ∀ r ∈ l, NameOk r
  | .cmaps, .cmaps l => l.length < 2147483648 ∧ ∀ c ∈ l, CmapFits c
  | .pclt, .pclt d => PcltFits d ∧ d.typeface.length = 16 ∧ d.file_name.length = 6
  | .binaryTable, .binaryTable d => IsLatin d.tag ∧ d.tag.length = 4 ∧ ∃ b : Bytes, d.data = hexStr b
  -- OpenType classes and features
  | .kerningFlags, .kerningFlags d => DictOk d ∧ d.length ≤ 2147483647 ∧ ∀ p ∈ d, (IsLatin p.1 ∧ p.1.length < 2147483648) ∧
      IsMixed p.2.1 ∧ IsMixed p.2.2
  | .metricsFlags, .metricsFlags d => DictOk d ∧ d.length ≤ 2147483647 ∧ ∀ p ∈ d, (IsLatin p.1 ∧ p.1.length < 2147483648) ∧
      IsMixed p.2.1 ∧ IsMixed p.2.2.1 ∧ IsMixed p.2.2.2
  | .fea, .lines l => FeaNormal l ∧ ∀ s ∈ l, IsLatin s
  -- multiple master
  | .aniso, .aniso l => AnisoFits l
  | .axisCounts, .ints l => l.length = 4 ∧ ∀ v ∈ l, 0 ≤ v ∧ v < 4294967296
  | .axisMappings, .axisMappings _ => True
  | .masterLocation, .location d => (0 ≤ d.1 ∧ d.1 < 4294967296) ∧ d.2.length = 4
  | .instances, .instances l => l.length < 2147483648 ∧ ∀ i ∈ l, InstanceFits i ∧ ∀ x ∈ i.values, storedCoord x = x
  -- guides: one position and angle for each master
  | .globalGuides, .guides d => GuidesFit ops ctx.num_masters.toNat d ∧ AnglesExact ops d
  | .guideProps, .guideProps d => ∀ g ∈ d.h ++ d.v, GuidePropOk g
  -- outlines
  | .globalMask, .globalMask m => OutlineFits m.numMasters m.nodes
  | .mask, .mask m => OutlineFits m.numMasters m.nodes ∧ m.weights.length < 2147483648 ∧
      ∀ x ∈ m.weights, IsInt32 (roundEven (fmul x 100000000)) ∧ storedWeight x = x
  | .glyph, .glyph g => GlyphFits ops asm ctx.num_masters.toNat g ∧ GlyphNormal ops asm g
  | .links, .links d => d.x.length < 2147483648 ∧ d.y.length < 2147483648 ∧ ∀ p ∈ d.x ++ d.y, PairFits p
  -- bitmaps: not in Windows files
  | .background, .background d => ctx.writer_platform ≠ lit "windows" ∧ BackgroundOk d
  | .bitmaps, .bitmaps l => ctx.writer_platform ≠ lit "windows" ∧ l.length < 2147483648 ∧ ∀ d ∈ l, GlyphBitmapOk d
  | .sketch, .sketch l => l.length < 4294967296 ∧ ∀ t ∈ l, IsInt32 t.1 ∧ IsInt32 t.2.1 ∧ IsInt32 t.2.2
  | .maskMetrics, .pair d => (-32768 ≤ d.1 ∧ d.1 < 32768) ∧ (-32768 ≤ d.2 ∧ d.2 < 32768)
  | .maskMetricsMM, .pairs l => l.length = ctx.num_masters.toNat - 1 ∧ ∀ p ∈ l, PairFits p
  | .origin, .origin d => (-32768 ≤ d.1 ∧ d.1 < 32768) ∧ (-32768 ≤ d.2 ∧ d.2 < 32768)
  | .unicodes, .ints l => ∀ v ∈ l, 0 ≤ v ∧ v < 65536
  | .unicodesSupp, .ints l => ∀ v ∈ l, 0 ≤ v ∧ v < 4294967296
  | .gdef, .gdef d => GdefFits d
  | .anchorsSupp, .anchorsSupp l => l.length < 2147483648 ∧ ∀ a ∈ l, ∃ hue data, a = ⟨some hue, some data⟩ ∧ IsMixed hue ∧ IsMixed data
  -- anchors: one position for each master
  | .anchors, .anchors l => ctx.num_masters.toNat < 2147483648 ∧ AnchorsFit ctx.num_masters.toNat l
  -- options
  | .fontOptions, .fontOptions d => FontOptionsFit d
  | .exportOptions, .exportOptions l => ∃ names : List PyStr, names.Sublist exportNames ∧ l = names.map .name
  | .mappingMode, .mappingMode d => d.mapping_mode ∈ [lit "names_or_index", lit "unicode_ranges", lit "codepages"] ∧
      IsInt32 d.m2 ∧ IsInt32 d.m3 ∧ IsInt32 d.mapping_id
  | _, _ => False

/-- The three entries that describe the font say what the attributes of the font say: the platform, the number of masters, the
numbers of TrueType stems. -/
def Agrees (ctx : Ctx) (id : Int) (d : Decompiled ops.Angle asm.Asm) : Prop :=
  (id = 10 → ∀ f, d = .flVersion f → ctx.writer_platform = f.platform) ∧
  (id = 1503 → ∀ n, d = .int n → ctx.num_masters = n) ∧
  (id = 1269 → ∀ t, d = .ttStems t → ctx.ttStemsV_count = t.ttStemsV.length ∧ ctx.ttStemsH_count = t.ttStemsH.length)

/-- Where such an entry is missing, the attributes have the values that they have in a new font. -/
def DefaultsKept (ctx : Ctx) (ids : List Int) : Prop :=
  (10 ∉ ids → ctx.writer_platform = lit "macos") ∧ (1503 ∉ ids → ctx.num_masters = 0) ∧
  (1269 ∉ ids → ctx.ttStemsV_count = 0 ∧ ctx.ttStemsH_count = 0)

/-- An entry that is ready to be written: never written before, and either raw bytes (of any id except the three special ones and
FontLab 3 kerning pairs), or storable data of a known id; less than 4 GB. -/
def EntryReady (ctx : Ctx) (e : Entry (Decompiled ops.Angle asm.Asm) (List MasterData)) : Prop :=
  e.temp_masters = none ∧ e.cached = none ∧
  ((∃ b, e.data = .bytes b ∧ 0 ≤ e.id ∧ e.id < 32768 ∧ e.id ∉ [(10 : Int), 1503, 1269, 1410] ∧ b.length < 4294967296) ∨
   ∃ k d, e.data = .dec d ∧ kindOf e.id = some k ∧ Storable ops asm ctx k d ∧ Agrees ops asm ctx e.id d ∧
     ∀ b, k.compileData ops asm ctx (some d) = .ok b → b.length < 4294967296)

/-- What has become of an entry `x` when it has been read back as `y`: the same id and, for raw bytes, the same bytes; otherwise
decompiling gives equal data. -/
def EntryKept (ctx : Ctx) (x y : Entry (Decompiled ops.Angle asm.Asm) (List MasterData)) : Prop :=
  y.id = x.id ∧ (∀ b, x.data = .bytes b → y.data = .bytes b) ∧
  ∀ d, x.data = .dec d → ∃ y' d', y.decompile (vfbCodec ops asm) ctx = (.ok (), y', false) ∧ y'.data = .dec d' ∧ SameData d d'

/-- New data for one of the three entries that describe the font say the same about the platform, the number of masters and the
numbers of TrueType stems; everything else in them may change. -/
def SameSettings (id : Int) (x : EData (Decompiled ops.Angle asm.Asm)) (d : Decompiled ops.Angle asm.Asm) : Prop :=
  (id = 10 → ∃ f f2, x = .dec (.flVersion f) ∧ d = .flVersion f2 ∧ f2.platform = f.platform) ∧
  (id = 1503 → x = .dec d) ∧
  (id = 1269 → ∃ t t2, x = .dec (.ttStems t) ∧ d = .ttStems t2 ∧ t2.ttStemsV.length = t.ttStemsV.length ∧
    t2.ttStemsH.length = t.ttStemsH.length)

/-- What a user may make of an entry `e` of a font that has been read: leave it alone, decompile it (and data that are not among
the exceptions of C15 come out), or replace its data by storable ones; in the FL version, master count and TrueType stems entries
the platform and the numbers stay.  Less than 4 GB. -/
def Edited (ctx : Ctx) (e e2 : Entry (Decompiled ops.Angle asm.Asm) (List MasterData)) : Prop :=
  e2 = e ∨ ∃ k d, e2 = { e with data := .dec d } ∧ kindOf e.id = some k ∧ SameSettings ops asm e.id e.data d ∧
    (Storable ops asm ctx k d ∨
      ((∃ b, e.data = .bytes b ∧ parseEntry ((vfbCodec ops asm).parse e.id ctx) b = .ok d) ∧ Survives ops asm ctx k d)) ∧
    ∀ b, k.compileData ops asm ctx (some d) = .ok b → b.length < 4294967296

/-- What a user may make of the list of entries of a font that has been read: edit entries in place, insert new ones anywhere before
the end, delete others; the FL version, master count, TrueType stems and end entries are neither inserted nor deleted. -/
inductive Reworked (ctx : Ctx) : List (Entry (Decompiled ops.Angle asm.Asm) (List MasterData)) →
    List (Entry (Decompiled ops.Angle asm.Asm) (List MasterData)) → Prop
  | done : Reworked ctx [] []
  | edit {e e2 l l2} : Edited ops asm ctx e e2 → Reworked ctx l l2 → Reworked ctx (e :: l) (e2 :: l2)
  | delete {e l l2} : e.id ∉ [(10 : Int), 1503, 1269, 2] → Reworked ctx l l2 → Reworked ctx (e :: l) l2
  | insert {e2 e l l2} : EntryReady ops asm ctx e2 → e2.id ∉ [(10 : Int), 1503, 1269, 2] → Reworked ctx (e :: l) l2 →
      Reworked ctx (e :: l) (e2 :: l2)

end
end Verif.Spec

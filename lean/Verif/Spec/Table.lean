import Verif.Model.Table
import Verif.Spec.Container
import Verif.Spec.Entry
import Verif.Spec.Mm
import Verif.Spec.TrueType
import Verif.Spec.Glyph
import Verif.Spec.GlyphEntries
/-! Specification vocabulary for C15, C16 and C57: what must hold of the decompiled data of an entry so that it can be written back. -/
set_option autoImplicit false
namespace Verif.Spec
open Verif

section
variable (ops : AngleOps) (asm : AsmOps)

/-- Equal for Python: dictionaries are compared without regard to the order of their items. -/
def SameData {A ASM : Type} (d d' : Decompiled A ASM) : Prop :=
  match d, d' with
  | .ttInfo a, .ttInfo b => SameDict a b
  | .ttDeltas a, .ttDeltas b => SameDeltas a b
  | a, b => a = b

/-- The exceptions to "whatever was decompiled can be written back".  For all other classes of entries there is no condition. -/
def Survives (ctx : Ctx) : Kind → Decompiled ops.Angle asm.Asm → Prop
  -- Block Names End, Block Font Info Start: read as text but written as hexadecimal digits; only the empty text survives
  | .stringHex, .str s => s = []
  -- FontLab 3 kerning pairs cannot be written
  | .kernPair, _ => False
  -- primary instances: coordinates are cut, not rounded, to ten-thousandths
  | .instances, .instances l => ∀ i ∈ l, ∀ x ∈ i.values, storedCoord x = x
  -- mapping mode: only the known modes
  | .mappingMode, .mappingMode d => d.mapping_mode ∈ [lit "names_or_index", lit "unicode_ranges", lit "codepages"]
  -- class flags are read as signed, but written as unsigned numbers
  | .kerningFlags, .kerningFlags d => ∀ p ∈ d, -1131 ≤ p.2.1 ∧ -1131 ≤ p.2.2
  | .metricsFlags, .metricsFlags d => ∀ p ∈ d, -1131 ≤ p.2.1 ∧ -1131 ≤ p.2.2.1 ∧ -1131 ≤ p.2.2.2
  -- bitmaps of Windows fonts cannot be written; less than 1 GB of pixel data
  | .background, .background d => ctx.writer_platform ≠ lit "windows" ∧ d.bitmap.data.flatten.length < 1073741824
  | .bitmaps, .bitmaps l => ctx.writer_platform ≠ lit "windows" ∧ l.length < 2147483648 ∧
      ∀ d ∈ l, d.bitmap.data.flatten.length < 1073741824
  -- Unicode ranges: 128 bits
  | .unicodeRanges, .ints l => ∀ b ∈ l, b < 128
  -- font names: no replacement character in a Mac Roman record
  | .nameRecords, .names l => ∀ r ∈ l, r.platID = 1 → r.encID = 0 → 0xFEFF ∉ r.name
  -- TrueType info: the mandatory keys and only known settings
  | .ttInfo, .ttInfo d => (∀ k ∈ ttMandatoryKeys, (dictGet d k).isSome = true) ∧
      ∀ f o, dictGet d 0x39 = some (.flags f o) → ∀ s ∈ o, s ∈ settingNames
  -- PCLT: not truncated, stroke weight and width type not negative
  | .pclt, .pclt d => d.typeface.length = 16 ∧ d.file_name.length = 6 ∧ 0 ≤ d.stroke_weight ∧ 0 ≤ d.width_type
  -- options with undocumented keys or bits cannot be written
  | .exportOptions, .exportOptions l => ∀ o ∈ l, ∃ s, o = .name s
  | .fontOptions, .fontOptions d => ∀ p ∈ d, p.1 ∈ fontOptionNames.map Prod.snd
  -- guides: angles that the float computation reproduces
  | .globalGuides, .guides d => AnglesExact ops d
  -- guide properties: colours of 24 bits
  | .guideProps, .guideProps d => ∀ g ∈ d.h ++ d.v, ∀ c, g.color = some c → c.length = 7
  -- outlines: at least one master if there are nodes, less than 2^31 bytes
  | .globalMask, .globalMask m => m.numMasters < 2147483648 ∧ (m.nodes ≠ [] → 1 ≤ m.numMasters) ∧
      outlineSize m.numMasters.toNat m.nodes < 2147483648
  | .mask, .mask m => m.numMasters < 2147483648 ∧ (m.nodes ≠ [] → 1 ≤ m.numMasters) ∧
      outlineSize m.numMasters.toNat m.nodes < 2147483648
  -- anchors: as many positions as the font has masters
  | .anchors, .anchors l => ctx.num_masters.toNat < 2147483648 ∧ ∀ a ∈ l, a.x.length = ctx.num_masters.toNat
  | .anchorsSupp, .anchorsSupp l => ∀ a ∈ l, -1131 ≤ a.hue.getD 0 ∧ -1131 ≤ a.data.getD 0
  -- glyphs
  | .glyph, .glyph g => GlyphComplete ops asm ctx.num_masters.toNat g ∧ ∀ d, g.guides = some d → AnglesExact ops d
  | _, _ => True

end

/-- The ids of the entries of each class, as in the list of entries of the file format: text entries, 16-bit numbers, … -/
def idsOf : Kind → List Int
  -- Block File Data Start, Block File Data End, Block Font Start, Block Font End, Block Names Start, Block MM Font Info Start,
  -- Block MM Kerning Start, Block Font Info End, Block MM Font Info End, Block MM Kerning End, cvt, prep, fpgm, Font Flags
  | .hex => [1, 2, 4, 5, 262, 271, 272, 513, 527, 528, 1261, 1262, 1263, 2030]
  -- Block Font Info Start, Block Names End
  | .stringHex => [257, 518]
  -- pref_family_name, full_name, font_name, family_name, weight, copyright, notice, source, version, menu_name, pcl_chars_set,
  -- trademark, designer, designer_url, vendor_url, width, default_character, License, License URL, apple_name, style_name,
  -- tt_version, tt_u_id, pref_style_name, mac_compatible, Sample Text, OpenType Class, Master Name, Axis Name,
  -- glyph.customdata, customdata, glyph.note, note, Custom Dict
  | .string => [1024, 1025, 1026, 1027, 1028, 1037, 1038, 1039, 1046, 1056, 1059, 1061, 1062, 1063, 1064, 1065, 1066, 1069,
    1070, 1092, 1127, 1128, 1129, 1137, 1139, 1140, 1277, 1504, 1514, 2015, 2016, 2017, 2025, 2034]
  -- vendor
  | .vendor => [1121]
  -- FL Version
  | .flVersion => [10]
  -- Encoding, Encoding Default
  | .glyphEncoding => [1500, 1501]
  -- underline_thickness, is_fixed_pitch, ms_charset, pcl_id, vp_id, ms_id, fond_id, version_major, version_minor, year,
  -- xuid_num, upm, font_style, hhea_line_gap, stemsnaplimit, zoneppm, codeppm, MM Encoding Type, Master Count, Axis Count,
  -- blue_values_num, other_blues_num, family_blues_num, family_other_blues_num, stem_snap_h_num, stem_snap_v_num, dropoutppm,
  -- mark, Export PCLT Table
  | .int16 => [1031, 1034, 1054, 1057, 1058, 1060, 1090, 1130, 1131, 1132, 1134, 1135, 1267, 1270, 1272, 1274, 1275, 1502,
    1503, 1513, 1530, 1531, 1532, 1533, 1534, 1535, 1604, 2012, 2022]
  -- underline_position, weight_code, hhea_ascender, hhea_descender, Measurement Line
  | .sint16 => [1030, 1048, 1278, 1279, 2032]
  -- unique_id
  | .sint32 => [1044]
  -- italic_angle, slant_angle
  | .double => [1029, 1047]
  -- Primary Instance Locations, weight_vector
  | .doubleList => [1247, 1517]
  -- xuid
  | .intList => [1133]
  -- panose
  | .panose => [1118]
  -- PostScript Hinting Options
  | .psGlobalOptions => [1093]
  -- Glyph Hinting Options
  | .psGlyphOptions => [2010]
  -- Collection
  | .valueListCount => [1068]
  -- VSB
  | .valueList => [2023]
  -- gasp
  | .gasp => [1265]
  -- ttinfo
  | .ttInfo => [1264]
  -- vdmx
  | .vdmx => [1271]
  -- TrueType Stem PPEMs 2 And 3
  | .ttPpems23 => [1266]
  -- TrueType Stem PPEMs
  | .ttPpems => [1268]
  -- TrueType Stems
  | .ttStems => [1269]
  -- TrueType Stem PPEMs 1
  | .ttPpems1 => [1524]
  -- TrueType Zones
  | .ttZones => [1255]
  -- TrueType Zone Deltas
  | .ttDeltas => [1273]
  -- unicoderanges
  | .unicodeRanges => [2021]
  -- fontnames
  | .nameRecords => [1138]
  -- Custom CMAPs
  | .cmaps => [1141]
  -- PCLT Table
  | .pclt => [1136]
  -- OpenType Metrics Class Flags
  | .metricsFlags => [2024]
  -- OpenType Kerning Class Flags
  | .kerningFlags => [2026]
  -- TrueTypeTable
  | .binaryTable => [2014]
  -- features
  | .fea => [1276]
  -- Anisotropic Interpolation Mappings
  | .aniso => [1523]
  -- Axis Mappings Count
  | .axisCounts => [1515]
  -- Axis Mappings
  | .axisMappings => [1516]
  -- Master Location
  | .masterLocation => [1505]
  -- Primary Instances
  | .instances => [1254]
  -- PostScript Info
  | .psInfo => [1536]
  -- Global Guides
  | .globalGuides => [1294]
  -- Global Guide Properties, Glyph Guide Properties
  | .guideProps => [1296, 2031]
  -- Global Mask
  | .globalMask => [1295]
  -- Glyph
  | .glyph => [2001]
  -- Links
  | .links => [2008]
  -- image
  | .background => [2007]
  -- Glyph Bitmaps
  | .bitmaps => [2013]
  -- Glyph Sketch
  | .sketch => [2019]
  -- mask
  | .mask => [2009]
  -- mask.metrics
  | .maskMetrics => [2011]
  -- mask.metrics_mm
  | .maskMetricsMM => [2028]
  -- Glyph Origin
  | .origin => [2027]
  -- unicodes
  | .unicodes => [1250]
  -- Glyph Unicode Non-BMP
  | .unicodesSupp => [1253]
  -- Glyph GDEF Data
  | .gdef => [2018]
  -- Glyph Anchors Supplemental
  | .anchorsSupp => [2020]
  -- Glyph Anchors MM
  | .anchors => [2029]
  -- Font Options
  | .fontOptions => [1743]
  -- Export Options
  | .exportOptions => [1744]
  -- Mapping Mode
  | .mappingMode => [1742]
  -- MMKernPair
  | .kernPair => [1410]

end Verif.Spec

import Verif.Model.Container
import Verif.Model.Base
import Verif.Model.Numeric
import Verif.Model.TextEntries
import Verif.Model.Options
import Verif.Model.Ps
import Verif.Model.TrueType
import Verif.Model.Mm
import Verif.Model.GlyphEntries
import Verif.Model.Glyph
import Verif.Model.Bitmap
import Verif.Model.Merge
/-! The table of entry ids with their parser and compiler classes — constants.py:144-324 with the ids of enum.py — and the
container instantiated with it.  (Written by tools/gen_table.py, which copies ids, keys and class names from /repo.) -/
set_option autoImplicit false
namespace Verif

/-- The pairs of parser and compiler classes that occur in the table. — constants.py:144-324 -/
inductive Kind where
  /-- `BaseParser`, `HexStringCompiler` -/
  | hex
  /-- `StringParser`, `HexStringCompiler` -/
  | stringHex
  /-- `StringParser`, `StringCompiler` -/
  | string
  /-- `StringParser`, `VendorIdCompiler` -/
  | vendor
  /-- `FLVersionParser`, `FLVersionCompiler` -/
  | flVersion
  /-- `GlyphEncodingParser`, `GlyphEncodingCompiler` -/
  | glyphEncoding
  /-- `Int16Parser`, `Int16Compiler` -/
  | int16
  /-- `SignedInt16Parser`, `SignedInt16Compiler` -/
  | sint16
  /-- `SignedInt32Parser`, `SignedInt32Compiler` -/
  | sint32
  /-- `DoubleParser`, `DoubleCompiler` -/
  | double
  /-- `DoubleListParser`, `DoubleListCompiler` -/
  | doubleList
  /-- `IntListParser`, `IntListCompiler` -/
  | intList
  /-- `PanoseParser`, `PanoseCompiler` -/
  | panose
  /-- `PostScriptGlobalHintingOptionsParser`, `PostScriptGlobalHintingOptionsCompiler` -/
  | psGlobalOptions
  /-- `PostScriptGlyphHintingOptionsParser`, `PostScriptGlyphHintingOptionsCompiler` -/
  | psGlyphOptions
  /-- `EncodedValueListWithCountParser`, `EncodedValueListWithCountCompiler` -/
  | valueListCount
  /-- `EncodedValueListParser`, `EncodedValueListCompiler` -/
  | valueList
  /-- `GaspParser`, `GaspCompiler` -/
  | gasp
  /-- `TrueTypeInfoParser`, `TrueTypeInfoCompiler` -/
  | ttInfo
  /-- `VdmxParser`, `VdmxCompiler` -/
  | vdmx
  /-- `TrueTypeStemPpems23Parser`, `TrueTypeStemPpems23Compiler` -/
  | ttPpems23
  /-- `TrueTypeStemPpemsParser`, `TrueTypeStemPpemsCompiler` -/
  | ttPpems
  /-- `TrueTypeStemsParser`, `TrueTypeStemsCompiler` -/
  | ttStems
  /-- `TrueTypeStemPpems1Parser`, `TrueTypeStemPpems1Compiler` -/
  | ttPpems1
  /-- `TrueTypeZonesParser`, `TrueTypeZonesCompiler` -/
  | ttZones
  /-- `TrueTypeZoneDeltasParser`, `TrueTypeZoneDeltasCompiler` -/
  | ttDeltas
  /-- `UnicodeRangesParser`, `UnicodeRangesCompiler` -/
  | unicodeRanges
  /-- `NameRecordsParser`, `NameRecordsCompiler` -/
  | nameRecords
  /-- `CustomCmapParser`, `CustomCmapCompiler` -/
  | cmaps
  /-- `PcltParser`, `PcltCompiler` -/
  | pclt
  /-- `OpenTypeMetricsClassFlagsParser`, `OpenTypeMetricsClassFlagsCompiler` -/
  | metricsFlags
  /-- `OpenTypeKerningClassFlagsParser`, `OpenTypeKerningClassFlagsCompiler` -/
  | kerningFlags
  /-- `BinaryTableParser`, `BinaryTableCompiler` -/
  | binaryTable
  /-- `OpenTypeStringParser`, `OpenTypeStringCompiler` -/
  | fea
  /-- `AnisotropicInterpolationsParser`, `AnisotropicInterpolationsCompiler` -/
  | aniso
  /-- `AxisMappingsCountParser`, `AxisMappingsCountCompiler` -/
  | axisCounts
  /-- `AxisMappingsParser`, `AxisMappingsCompiler` -/
  | axisMappings
  /-- `MasterLocationParser`, `MasterLocationCompiler` -/
  | masterLocation
  /-- `PrimaryInstancesParser`, `PrimaryInstancesCompiler` -/
  | instances
  /-- `PostScriptInfoParser`, `PostScriptInfoCompiler` -/
  | psInfo
  /-- `GlobalGuidesParser`, `GuidesCompiler` -/
  | globalGuides
  /-- `GuidePropertiesParser`, `GuidePropertiesCompiler` -/
  | guideProps
  /-- `GlobalMaskParser`, `GlobalMaskCompiler` -/
  | globalMask
  /-- `GlyphParser`, `GlyphCompiler` -/
  | glyph
  /-- `LinkParser`, `LinksCompiler` -/
  | links
  /-- `BackgroundBitmapParser`, `BackgroundBitmapCompiler` -/
  | background
  /-- `GlyphBitmapsParser`, `GlyphBitmapsCompiler` -/
  | bitmaps
  /-- `GlyphSketchParser`, `GlyphSketchCompiler` -/
  | sketch
  /-- `MaskParser`, `MaskCompiler` -/
  | mask
  /-- `MaskMetricsParser`, `MaskMetricsCompiler` -/
  | maskMetrics
  /-- `MaskMetricsMMParser`, `MaskMetricsMMCompiler` -/
  | maskMetricsMM
  /-- `GlyphOriginParser`, `GlyphOriginCompiler` -/
  | origin
  /-- `GlyphUnicodeParser`, `GlyphUnicodesCompiler` -/
  | unicodes
  /-- `GlyphUnicodeSuppParser`, `GlyphUnicodesSuppCompiler` -/
  | unicodesSupp
  /-- `GlyphGDEFParser`, `GlyphGDEFCompiler` -/
  | gdef
  /-- `GlyphAnchorsSuppParser`, `GlyphAnchorsSuppCompiler` -/
  | anchorsSupp
  /-- `GlyphAnchorsParser`, `GlyphAnchorsCompiler` -/
  | anchors
  /-- `FontOptionsParser`, `FontOptionsCompiler` -/
  | fontOptions
  /-- `ExportOptionsParser`, `ExportOptionsCompiler` -/
  | exportOptions
  /-- `MappingModeParser`, `MappingModeCompiler` -/
  | mappingMode
  /-- `MMKernPairParser`, `MMKernPairCompiler` -/
  | kernPair
  deriving DecidableEq, Repr

/-- What an entry may be decompiled to (`EntryDecompiled`, typing.py).  `A`: angles, `ASM`: assembly of TrueType instructions. -/
inductive Decompiled (A ASM : Type) where
  | str (d : PyStr)
  | flVersion (d : FLVersion)
  | encoding (d : Int × PyStr)
  | int (d : Int)
  | double (d : Dbl)
  | doubles (d : List Dbl)
  | ints (d : List Int)
  | bitOptions (d : BitOptions)
  | gasp (d : List GaspRec)
  | ttInfo (d : TTInfo)
  | vdmx (d : List VdmxRec)
  | ttPpems (d : TTStems TTPpem)
  | ttStems (d : TTStems TTStem)
  | ttZones (d : TTZones)
  | ttDeltas (d : TTDeltas)
  | names (d : List NameRecord)
  | cmaps (d : List CustomCmap)
  | pclt (d : Pclt)
  | metricsFlags (d : List (PyStr × (Int × Int × Int)))
  | kerningFlags (d : List (PyStr × (Int × Int)))
  | binaryTable (d : BinaryTable)
  | lines (d : List PyStr)
  | aniso (d : List (List (Int × Int)))
  | axisMappings (d : List (Dbl × Dbl))
  | location (d : Int × List Dbl)
  | instances (d : List PrimaryInstance)
  | psInfo (d : PSInfo)
  | guides (d : MMGuides A)
  | guideProps (d : GuideProps)
  | globalMask (d : GlobalMask)
  | glyph (d : Glyph A ASM)
  | links (d : Links)
  | background (d : BackgroundImage)
  | bitmaps (d : List GlyphBitmap)
  | sketch (d : List (Int × Int × Int))
  | mask (d : Mask)
  | pair (d : Int × Int)
  | pairs (d : List (Int × Int))
  | origin (d : Int × Int)
  | gdef (d : Gdef)
  | anchorsSupp (d : List AnchorProps)
  | anchors (d : List MMAnchor)
  | fontOptions (d : List (PyStr × FontOpt))
  | exportOptions (d : List ExportOption)
  | mappingMode (d : MappingMode)
  | kernPair (d : KernPairData)

/-- A parser class with its compiler class: the Python type of the data as a part of `Decompiled`, the parser, the compiler, and
what the compiler does with `None`. — constants.py:144-324, vfb/entry.py:131-149 -/
structure EntryClass (D : Type) where
  Ty : Type
  inj : Ty → D
  proj : D → Option Ty
  parse : Ctx → R Ty
  compile : Ctx → Ty → W
  compileNone : W

section
variable (ops : AngleOps) (asm : AsmOps)

/-- the classes; `None` raises TypeError or AttributeError in most compilers (represented as `type`)
— constants.py:144-324, vfb/entry.py:131-149 -/
def Kind.cls : Kind → EntryClass (Decompiled ops.Angle asm.Asm)
  | .hex =>
    { Ty := PyStr
      inj := .str
      proj := fun d => match d with
        | .str d => some d
        | _ => none
      parse := fun _ => parseHex
      compile := fun _ s => compileHex (some s)
      compileNone := compileHex none }
  | .stringHex =>
    { Ty := PyStr
      inj := .str
      proj := fun d => match d with
        | .str d => some d
        | _ => none
      parse := fun _ => parseString
      compile := fun _ s => compileHex (some s)
      compileNone := compileHex none }
  | .string =>
    { Ty := PyStr
      inj := .str
      proj := fun d => match d with
        | .str d => some d
        | _ => none
      parse := fun _ => parseString
      compile := fun _ s => compileString s
      compileNone := compileString [] }
  | .vendor =>
    { Ty := PyStr
      inj := .str
      proj := fun d => match d with
        | .str d => some d
        | _ => none
      parse := fun _ => parseString
      compile := fun _ s => compileVendorId s
      compileNone := compileVendorId [] }
  | .flVersion =>
    { Ty := FLVersion
      inj := .flVersion
      proj := fun d => match d with
        | .flVersion d => some d
        | _ => none
      parse := fun _ => parseFLVersion
      compile := fun _ d => compileFLVersion d
      compileNone := .error .type }
  | .glyphEncoding =>
    { Ty := Int × PyStr
      inj := .encoding
      proj := fun d => match d with
        | .encoding d => some d
        | _ => none
      parse := fun _ => parseGlyphEncoding
      compile := fun _ d => compileGlyphEncoding d
      compileNone := .error .type }
  | .int16 =>
    { Ty := Int
      inj := .int
      proj := fun d => match d with
        | .int d => some d
        | _ => none
      parse := fun _ => parseInt16
      compile := fun _ d => compileInt16 d
      compileNone := .error .type }
  | .sint16 =>
    { Ty := Int
      inj := .int
      proj := fun d => match d with
        | .int d => some d
        | _ => none
      parse := fun _ => parseSInt16
      compile := fun _ d => compileSInt16 d
      compileNone := .error .type }
  | .sint32 =>
    { Ty := Int
      inj := .int
      proj := fun d => match d with
        | .int d => some d
        | _ => none
      parse := fun _ => parseSInt32
      compile := fun _ d => compileSInt32 d
      compileNone := .error .type }
  | .double =>
    { Ty := Dbl
      inj := .double
      proj := fun d => match d with
        | .double d => some d
        | _ => none
      parse := fun _ => parseDouble
      compile := fun _ d => compileDouble d
      compileNone := .error .type }
  | .doubleList =>
    { Ty := List Dbl
      inj := .doubles
      proj := fun d => match d with
        | .doubles d => some d
        | _ => none
      parse := fun _ => parseDoubleList
      compile := fun _ d => compileDoubleList d
      compileNone := .error .type }
  | .intList =>
    { Ty := List Int
      inj := .ints
      proj := fun d => match d with
        | .ints d => some d
        | _ => none
      parse := fun _ => parseIntList
      compile := fun _ d => compileIntList d
      compileNone := .error .type }
  | .panose =>
    { Ty := List Int
      inj := .ints
      proj := fun d => match d with
        | .ints d => some d
        | _ => none
      parse := fun _ => parsePanose
      compile := fun _ d => compilePanose d
      compileNone := .error .type }
  | .psGlobalOptions =>
    { Ty := BitOptions
      inj := .bitOptions
      proj := fun d => match d with
        | .bitOptions d => some d
        | _ => none
      parse := fun _ => parsePSGlobalOptions
      compile := fun _ d => compilePSGlobalOptions d
      compileNone := .error .type }
  | .psGlyphOptions =>
    { Ty := BitOptions
      inj := .bitOptions
      proj := fun d => match d with
        | .bitOptions d => some d
        | _ => none
      parse := fun _ => parsePSGlyphOptions
      compile := fun _ d => compilePSGlyphOptions d
      compileNone := .error .type }
  | .valueListCount =>
    { Ty := List Int
      inj := .ints
      proj := fun d => match d with
        | .ints d => some d
        | _ => none
      parse := fun _ => parseValueListCount
      compile := fun _ d => compileValueListCount d
      compileNone := .error .type }
  | .valueList =>
    { Ty := List Int
      inj := .ints
      proj := fun d => match d with
        | .ints d => some d
        | _ => none
      parse := fun _ => parseValueList
      compile := fun _ d => compileValueList d
      compileNone := .error .type }
  | .gasp =>
    { Ty := List GaspRec
      inj := .gasp
      proj := fun d => match d with
        | .gasp d => some d
        | _ => none
      parse := fun _ => parseGasp
      compile := fun _ d => compileGasp d
      compileNone := .error .type }
  | .ttInfo =>
    { Ty := TTInfo
      inj := .ttInfo
      proj := fun d => match d with
        | .ttInfo d => some d
        | _ => none
      parse := fun _ => parseTTInfo
      compile := fun _ d => compileTTInfo d
      compileNone := .error .type }
  | .vdmx =>
    { Ty := List VdmxRec
      inj := .vdmx
      proj := fun d => match d with
        | .vdmx d => some d
        | _ => none
      parse := fun _ => parseVdmx
      compile := fun _ d => compileVdmx d
      compileNone := .error .type }
  | .ttPpems23 =>
    { Ty := TTStems TTPpem
      inj := .ttPpems
      proj := fun d => match d with
        | .ttPpems d => some d
        | _ => none
      parse := fun _ => parseTTPpems23
      compile := fun _ d => compileTTPpems23 d
      compileNone := .error .type }
  | .ttPpems =>
    { Ty := TTStems TTPpem
      inj := .ttPpems
      proj := fun d => match d with
        | .ttPpems d => some d
        | _ => none
      parse := fun _ => parseTTPpems
      compile := fun _ d => compileTTPpems d
      compileNone := .error .type }
  | .ttStems =>
    { Ty := TTStems TTStem
      inj := .ttStems
      proj := fun d => match d with
        | .ttStems d => some d
        | _ => none
      parse := fun _ => parseTTStems
      compile := fun _ d => compileTTStems d
      compileNone := .error .type }
  | .ttPpems1 =>
    { Ty := TTStems TTPpem
      inj := .ttPpems
      proj := fun d => match d with
        | .ttPpems d => some d
        | _ => none
      parse := fun ctx => parseTTPpems1 ctx.ttStemsV_count ctx.ttStemsH_count
      compile := fun _ d => compileTTPpems1 d
      compileNone := .error .type }
  | .ttZones =>
    { Ty := TTZones
      inj := .ttZones
      proj := fun d => match d with
        | .ttZones d => some d
        | _ => none
      parse := fun _ => parseTTZones
      compile := fun _ d => compileTTZones d
      compileNone := .error .type }
  | .ttDeltas =>
    { Ty := TTDeltas
      inj := .ttDeltas
      proj := fun d => match d with
        | .ttDeltas d => some d
        | _ => none
      parse := fun _ => parseTTDeltas
      compile := fun _ d => compileTTDeltas d
      compileNone := .error .type }
  | .unicodeRanges =>
    { Ty := List Int
      inj := .ints
      proj := fun d => match d with
        | .ints d => some d
        | _ => none
      parse := fun _ => parseUnicodeRanges
      compile := fun _ d => compileUnicodeRanges d
      compileNone := .error .type }
  | .nameRecords =>
    { Ty := List NameRecord
      inj := .names
      proj := fun d => match d with
        | .names d => some d
        | _ => none
      parse := fun _ => parseNameRecords
      compile := fun _ d => compileNameRecords d
      compileNone := .error .type }
  | .cmaps =>
    { Ty := List CustomCmap
      inj := .cmaps
      proj := fun d => match d with
        | .cmaps d => some d
        | _ => none
      parse := fun _ => parseCmaps
      compile := fun _ d => compileCmaps d
      compileNone := .error .type }
  | .pclt =>
    { Ty := Pclt
      inj := .pclt
      proj := fun d => match d with
        | .pclt d => some d
        | _ => none
      parse := fun _ => parsePclt
      compile := fun _ d => compilePclt d
      compileNone := .error .type }
  | .metricsFlags =>
    { Ty := List (PyStr × (Int × Int × Int))
      inj := .metricsFlags
      proj := fun d => match d with
        | .metricsFlags d => some d
        | _ => none
      parse := fun _ => parseMetricsFlags
      compile := fun _ d => compileMetricsFlags d
      compileNone := .error .type }
  | .kerningFlags =>
    { Ty := List (PyStr × (Int × Int))
      inj := .kerningFlags
      proj := fun d => match d with
        | .kerningFlags d => some d
        | _ => none
      parse := fun _ => parseKerningFlags
      compile := fun _ d => compileKerningFlags d
      compileNone := .error .type }
  | .binaryTable =>
    { Ty := BinaryTable
      inj := .binaryTable
      proj := fun d => match d with
        | .binaryTable d => some d
        | _ => none
      parse := fun _ => parseBinaryTable
      compile := fun _ d => compileBinaryTable d
      compileNone := .error .type }
  | .fea =>
    { Ty := List PyStr
      inj := .lines
      proj := fun d => match d with
        | .lines d => some d
        | _ => none
      parse := fun _ => parseFea
      compile := fun _ d => compileFea d
      compileNone := .error .type }
  | .aniso =>
    { Ty := List (List (Int × Int))
      inj := .aniso
      proj := fun d => match d with
        | .aniso d => some d
        | _ => none
      parse := fun _ => parseAniso
      compile := fun _ d => compileAniso d
      compileNone := .error .type }
  | .axisCounts =>
    { Ty := List Int
      inj := .ints
      proj := fun d => match d with
        | .ints d => some d
        | _ => none
      parse := fun _ => parseAxisCounts
      compile := fun _ d => compileAxisCounts d
      compileNone := .error .type }
  | .axisMappings =>
    { Ty := List (Dbl × Dbl)
      inj := .axisMappings
      proj := fun d => match d with
        | .axisMappings d => some d
        | _ => none
      parse := fun _ => parseAxisMappings
      compile := fun _ d => compileAxisMappings d
      compileNone := .error .type }
  | .masterLocation =>
    { Ty := Int × List Dbl
      inj := .location
      proj := fun d => match d with
        | .location d => some d
        | _ => none
      parse := fun _ => parseMasterLocation
      compile := fun _ d => compileMasterLocation d
      compileNone := .error .type }
  | .instances =>
    { Ty := List PrimaryInstance
      inj := .instances
      proj := fun d => match d with
        | .instances d => some d
        | _ => none
      parse := fun _ => parseInstances
      compile := fun _ d => compileInstances d
      compileNone := .error .type }
  | .psInfo =>
    { Ty := PSInfo
      inj := .psInfo
      proj := fun d => match d with
        | .psInfo d => some d
        | _ => none
      parse := fun _ => parsePSInfo
      compile := fun _ d => compilePSInfo d
      compileNone := .error .type }
  | .globalGuides =>
    { Ty := MMGuides ops.Angle
      inj := .guides
      proj := fun d => match d with
        | .guides d => some d
        | _ => none
      parse := fun ctx => parseGlobalGuides ops ctx.num_masters.toNat
      compile := fun ctx d => compileGuides ops ctx.num_masters.toNat d
      compileNone := .error .type }
  | .guideProps =>
    { Ty := GuideProps
      inj := .guideProps
      proj := fun d => match d with
        | .guideProps d => some d
        | _ => none
      parse := fun _ => parseGuideProps
      compile := fun _ d => compileGuideProps d
      compileNone := .error .type }
  | .globalMask =>
    { Ty := GlobalMask
      inj := .globalMask
      proj := fun d => match d with
        | .globalMask d => some d
        | _ => none
      parse := fun _ => parseGlobalMask
      compile := fun _ d => compileGlobalMask d
      compileNone := .error .type }
  | .glyph =>
    { Ty := Glyph ops.Angle asm.Asm
      inj := .glyph
      proj := fun d => match d with
        | .glyph d => some d
        | _ => none
      parse := fun _ => parseGlyph ops asm
      compile := fun ctx d => compileGlyph ops asm ctx.num_masters.toNat d
      compileNone := .error .type }
  | .links =>
    { Ty := Links
      inj := .links
      proj := fun d => match d with
        | .links d => some d
        | _ => none
      parse := fun _ => parseLinks
      compile := fun _ d => compileLinks d
      compileNone := .error .type }
  | .background =>
    { Ty := BackgroundImage
      inj := .background
      proj := fun d => match d with
        | .background d => some d
        | _ => none
      parse := fun ctx => parseBackground (ctx.writer_platform = lit "windows")
      compile := fun ctx d => compileBackground (ctx.writer_platform = lit "windows") d
      compileNone := .error .type }
  | .bitmaps =>
    { Ty := List GlyphBitmap
      inj := .bitmaps
      proj := fun d => match d with
        | .bitmaps d => some d
        | _ => none
      parse := fun ctx => parseGlyphBitmaps (ctx.writer_platform = lit "windows")
      compile := fun ctx d => compileGlyphBitmaps (ctx.writer_platform = lit "windows") d
      compileNone := .error .type }
  | .sketch =>
    { Ty := List (Int × Int × Int)
      inj := .sketch
      proj := fun d => match d with
        | .sketch d => some d
        | _ => none
      parse := fun _ => parseSketch
      compile := fun _ d => compileSketch d
      compileNone := .error .type }
  | .mask =>
    { Ty := Mask
      inj := .mask
      proj := fun d => match d with
        | .mask d => some d
        | _ => none
      parse := fun _ => parseMask
      compile := fun _ d => compileMask d
      compileNone := .error .type }
  | .maskMetrics =>
    { Ty := Int × Int
      inj := .pair
      proj := fun d => match d with
        | .pair d => some d
        | _ => none
      parse := fun _ => parseMaskMetrics
      compile := fun _ d => compileMaskMetrics d
      compileNone := .error .type }
  | .maskMetricsMM =>
    { Ty := List (Int × Int)
      inj := .pairs
      proj := fun d => match d with
        | .pairs d => some d
        | _ => none
      parse := fun ctx => parseMaskMetricsMM ctx.num_masters.toNat
      compile := fun _ d => compileMaskMetricsMM d
      compileNone := .error .type }
  | .origin =>
    { Ty := Int × Int
      inj := .origin
      proj := fun d => match d with
        | .origin d => some d
        | _ => none
      parse := fun _ => parseOrigin
      compile := fun _ d => compileOrigin d
      compileNone := .error .type }
  | .unicodes =>
    { Ty := List Int
      inj := .ints
      proj := fun d => match d with
        | .ints d => some d
        | _ => none
      parse := fun _ => parseUnicodes
      compile := fun _ d => compileUnicodes d
      compileNone := .error .type }
  | .unicodesSupp =>
    { Ty := List Int
      inj := .ints
      proj := fun d => match d with
        | .ints d => some d
        | _ => none
      parse := fun _ => parseUnicodesSupp
      compile := fun _ d => compileUnicodesSupp d
      compileNone := .error .type }
  | .gdef =>
    { Ty := Gdef
      inj := .gdef
      proj := fun d => match d with
        | .gdef d => some d
        | _ => none
      parse := fun _ => parseGdef
      compile := fun _ d => compileGdef d
      compileNone := .error .type }
  | .anchorsSupp =>
    { Ty := List AnchorProps
      inj := .anchorsSupp
      proj := fun d => match d with
        | .anchorsSupp d => some d
        | _ => none
      parse := fun _ => parseAnchorsSupp
      compile := fun _ d => compileAnchorsSupp d
      compileNone := .error .type }
  | .anchors =>
    { Ty := List MMAnchor
      inj := .anchors
      proj := fun d => match d with
        | .anchors d => some d
        | _ => none
      parse := fun _ => parseAnchors
      compile := fun ctx d => compileAnchors ctx.num_masters.toNat d
      compileNone := .error .type }
  | .fontOptions =>
    { Ty := List (PyStr × FontOpt)
      inj := .fontOptions
      proj := fun d => match d with
        | .fontOptions d => some d
        | _ => none
      parse := fun _ => parseFontOptions
      compile := fun _ d => compileFontOptions d
      compileNone := .error .type }
  | .exportOptions =>
    { Ty := List ExportOption
      inj := .exportOptions
      proj := fun d => match d with
        | .exportOptions d => some d
        | _ => none
      parse := fun _ => parseExportOptions
      compile := fun _ d => compileExportOptions d
      compileNone := .error .type }
  | .mappingMode =>
    { Ty := MappingMode
      inj := .mappingMode
      proj := fun d => match d with
        | .mappingMode d => some d
        | _ => none
      parse := fun _ => parseMappingMode
      compile := fun _ d => compileMappingMode d
      compileNone := .error .type }
  | .kernPair =>
    { Ty := KernPairData
      inj := fun d => match d with
        | .ints l => .ints l
        | d => .kernPair d
      proj := fun d => match d with
        | .kernPair d => some d
        | .ints l => some (.ints l)
        | _ => none
      parse := fun ctx => parseKernPair ctx.num_masters.toNat
      compile := fun _ d => compileKernPair d
      compileNone := .error .type }

end

/-- `parser_classes` — constants.py:144-324: id, key, classes -/
def parserClasses : List (Int × String × Kind) := [
  (1, "Block File Data Start", .hex),
  (4, "Block Font Start", .hex),
  (10, "FL Version", .flVersion),
  (262, "Block Names Start", .hex),
  (1501, "Encoding Default", .glyphEncoding),
  (1500, "Encoding", .glyphEncoding),
  (1502, "MM Encoding Type", .int16),
  (518, "Block Names End", .stringHex),
  (257, "Block Font Info Start", .stringHex),
  (1026, "font_name", .string),
  (1503, "Master Count", .int16),
  (1517, "weight_vector", .doubleList),
  (1044, "unique_id", .sint32),
  (1046, "version", .string),
  (1038, "notice", .string),
  (1025, "full_name", .string),
  (1027, "family_name", .string),
  (1024, "pref_family_name", .string),
  (1056, "menu_name", .string),
  (1092, "apple_name", .string),
  (1028, "weight", .string),
  (1065, "width", .string),
  (1069, "License", .string),
  (1070, "License URL", .string),
  (1037, "copyright", .string),
  (1061, "trademark", .string),
  (1062, "designer", .string),
  (1063, "designer_url", .string),
  (1064, "vendor_url", .string),
  (1039, "source", .string),
  (1034, "is_fixed_pitch", .int16),
  (1048, "weight_code", .sint16),
  (1029, "italic_angle", .double),
  (1047, "slant_angle", .double),
  (1030, "underline_position", .sint16),
  (1031, "underline_thickness", .int16),
  (1054, "ms_charset", .int16),
  (1118, "panose", .panose),
  (1128, "tt_version", .string),
  (1129, "tt_u_id", .string),
  (1127, "style_name", .string),
  (1137, "pref_style_name", .string),
  (1139, "mac_compatible", .string),
  (1140, "Sample Text", .string),
  (1121, "vendor", .vendor),
  (1133, "xuid", .intList),
  (1134, "xuid_num", .int16),
  (1132, "year", .int16),
  (1130, "version_major", .int16),
  (1131, "version_minor", .int16),
  (1135, "upm", .int16),
  (1090, "fond_id", .int16),
  (1093, "PostScript Hinting Options", .psGlobalOptions),
  (1068, "Collection", .valueListCount),
  (1530, "blue_values_num", .int16),
  (1531, "other_blues_num", .int16),
  (1532, "family_blues_num", .int16),
  (1533, "family_other_blues_num", .int16),
  (1534, "stem_snap_h_num", .int16),
  (1535, "stem_snap_v_num", .int16),
  (1267, "font_style", .int16),
  (1057, "pcl_id", .int16),
  (1058, "vp_id", .int16),
  (1060, "ms_id", .int16),
  (1059, "pcl_chars_set", .string),
  (1261, "cvt", .hex),
  (1262, "prep", .hex),
  (1263, "fpgm", .hex),
  (1265, "gasp", .gasp),
  (1264, "ttinfo", .ttInfo),
  (1271, "vdmx", .vdmx),
  (1270, "hhea_line_gap", .int16),
  (1278, "hhea_ascender", .sint16),
  (1279, "hhea_descender", .sint16),
  (1266, "TrueType Stem PPEMs 2 And 3", .ttPpems23),
  (1268, "TrueType Stem PPEMs", .ttPpems),
  (1269, "TrueType Stems", .ttStems),
  (1524, "TrueType Stem PPEMs 1", .ttPpems1),
  (1255, "TrueType Zones", .ttZones),
  (2021, "unicoderanges", .unicodeRanges),
  (1272, "stemsnaplimit", .int16),
  (1274, "zoneppm", .int16),
  (1275, "codeppm", .int16),
  (1604, "dropoutppm", .int16),
  (2032, "Measurement Line", .sint16),
  (1273, "TrueType Zone Deltas", .ttDeltas),
  (1138, "fontnames", .nameRecords),
  (1141, "Custom CMAPs", .cmaps),
  (1136, "PCLT Table", .pclt),
  (2022, "Export PCLT Table", .int16),
  (2025, "note", .string),
  (2030, "Font Flags", .hex),
  (2016, "customdata", .string),
  (2024, "OpenType Metrics Class Flags", .metricsFlags),
  (2026, "OpenType Kerning Class Flags", .kerningFlags),
  (2014, "TrueTypeTable", .binaryTable),
  (1276, "features", .fea),
  (1277, "OpenType Class", .string),
  (513, "Block Font Info End", .hex),
  (271, "Block MM Font Info Start", .hex),
  (1513, "Axis Count", .int16),
  (1514, "Axis Name", .string),
  (1523, "Anisotropic Interpolation Mappings", .aniso),
  (1515, "Axis Mappings Count", .axisCounts),
  (1516, "Axis Mappings", .axisMappings),
  (1504, "Master Name", .string),
  (1505, "Master Location", .masterLocation),
  (1247, "Primary Instance Locations", .doubleList),
  (1254, "Primary Instances", .instances),
  (1536, "PostScript Info", .psInfo),
  (527, "Block MM Font Info End", .hex),
  (1294, "Global Guides", .globalGuides),
  (1296, "Global Guide Properties", .guideProps),
  (1295, "Global Mask", .globalMask),
  (1066, "default_character", .string),
  (2001, "Glyph", .glyph),
  (2008, "Links", .links),
  (2007, "image", .background),
  (2013, "Glyph Bitmaps", .bitmaps),
  (2023, "VSB", .valueList),
  (2019, "Glyph Sketch", .sketch),
  (2010, "Glyph Hinting Options", .psGlyphOptions),
  (2009, "mask", .mask),
  (2011, "mask.metrics", .maskMetrics),
  (2028, "mask.metrics_mm", .maskMetricsMM),
  (2027, "Glyph Origin", .origin),
  (1250, "unicodes", .unicodes),
  (2034, "Custom Dict", .string),
  (1253, "Glyph Unicode Non-BMP", .unicodesSupp),
  (2012, "mark", .int16),
  (2015, "glyph.customdata", .string),
  (2017, "glyph.note", .string),
  (2018, "Glyph GDEF Data", .gdef),
  (2020, "Glyph Anchors Supplemental", .anchorsSupp),
  (2029, "Glyph Anchors MM", .anchors),
  (2031, "Glyph Guide Properties", .guideProps),
  (1743, "Font Options", .fontOptions),
  (1744, "Export Options", .exportOptions),
  (1742, "Mapping Mode", .mappingMode),
  (272, "Block MM Kerning Start", .hex),
  (1410, "MMKernPair", .kernPair),
  (528, "Block MM Kerning End", .hex),
  (5, "Block Font End", .hex),
  (2, "Block File Data End", .hex)]

/-- `parser_classes.get(id)` — vfb/entry.py:139 -/
def kindOf (id : Int) : Option Kind := (parserClasses.find? fun r => r.1 == id).map fun r => r.2.2

section
variable (ops : AngleOps) (asm : AsmOps)

/-- `parser()._parse` by id, ids that are not in the table use `BaseParser` — vfb/entry.py:139-149 -/
def tableParse (id : Int) (ctx : Ctx) : R (Decompiled ops.Angle asm.Asm) :=
  match kindOf id with
  | some k => do
    let a ← (k.cls ops asm).parse ctx
    pure ((k.cls ops asm).inj a)
  | none => do
    let s ← parseHex
    pure (.str s)

/-- `compiler()._compile` of a class; data of another type than the compiler expects are represented as a TypeError (the code may raise
another exception, or accept data of similar type such as a tuple for a list)
— vfb/entry.py:181-205 -/
def Kind.compileData (k : Kind) (ctx : Ctx) (data : Option (Decompiled ops.Angle asm.Asm)) : W :=
  match data with
  | none => (k.cls ops asm).compileNone
  | some d => match (k.cls ops asm).proj d with
    | some a => (k.cls ops asm).compile ctx a
    | none => .error .type

/-- the compiler by id, if there is one — vfb/entry.py:131-149, 181-205 -/
def tableCompile (id : Int) : Option (Ctx → Option (Decompiled ops.Angle asm.Asm) → W) :=
  (kindOf id).map fun k => k.compileData ops asm

/-- `compiler.merge` — compilers/glyph.py:78-104; the other compilers do nothing (compilers/base.py:205-217) -/
def tableMerge (id : Int) (masters : List MasterData) (data : Option (Decompiled ops.Angle asm.Asm)) :
    Option (Decompiled ops.Angle asm.Asm) × Option PyErr :=
  if id = 2001 then
    match data with
    | some (.glyph g) =>
      match mergeGlyph masters ⟨g.nodes, g.components⟩ with
      | (r, e) => (some (.glyph { g with nodes := r.nodes, components := r.components }), e)
    | d => (d, if masters.length < 2 then none else some .type)
  else (data, none)

/-- `get_empty_glyph` — templates/glyph.py:4-10 -/
def emptyGlyph (A ASM : Type) (n : Int) : Glyph A ASM :=
  { name := some []
    numMasters := some n
    nodes := some []
    metrics := some (List.replicate n.toNat (0, 0))
    hints := none
    guides := none
    components := none
    kerning := none
    imported := none
    tth := none }

/-- the actual table.  `platform`, `masters` and `stems` are what vfb/vfb.py:254-279 looks at in the entries FL Version, Master Count and
TrueType Stems, the name is that of a glyph entry (`data["name"]`, "" if there is none). -/
def vfbCodec : Codec (Decompiled ops.Angle asm.Asm) (List MasterData) where
  parse := tableParse ops asm
  compile := tableCompile ops asm
  merge := tableMerge ops asm
  platform d := match d with
    | .flVersion v => v.platform
    | _ => []
  masters d := match d with
    | .int n => n
    | _ => 0
  stems d := match d with
    | .ttStems t => (t.ttStemsV.length, t.ttStemsH.length)
    | _ => (0, 0)
  emptyGlyph n := .glyph (emptyGlyph ops.Angle asm.Asm n)
  glyphName d := match d with
    | .glyph g => g.name.getD []
    | _ => []

end

end Verif

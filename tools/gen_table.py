"""Generates lean/Verif/Model/Table.lean from /repo (constants.py, enum.py): ids, keys and class pairs are copied mechanically,
the Lean functions of each class pair come from the list below."""
import ast, re
R = "/repo/src/vfbLib/"
enums = {}
for c in [n for n in ast.parse(open(R + "enum.py").read()).body if isinstance(n, ast.ClassDef)]:
    env = {}
    for a in c.body:
        if isinstance(a, ast.Assign):
            env[a.targets[0].id] = eval(compile(ast.Expression(a.value), "", "eval"), {}, env)
    enums[c.name] = env
src = open(R + "constants.py").read()
tree = ast.parse(src)
rows = []
for n in tree.body:
    if isinstance(n, ast.Assign) and n.targets[0].id == "parser_classes":
        for k, v in zip(n.value.keys, n.value.values):
            rows.append((enums[k.value.id][k.attr], v.elts[0].value, v.elts[1].id, v.elts[2].id, k.lineno))
# kind, (parser class, compiler class), Decompiled constructor, Lean type, parse, compile, compile of None
K = [
("hex", "BaseParser", "HexStringCompiler", "str", "parseHex", "fun _ s => compileHex (some s)", "compileHex none"),
("stringHex", "StringParser", "HexStringCompiler", "str", "parseString", "fun _ s => compileHex (some s)", "compileHex none"),
("string", "StringParser", "StringCompiler", "str", "parseString", "fun _ s => compileString s", "compileString []"),
("vendor", "StringParser", "VendorIdCompiler", "str", "parseString", "fun _ s => compileVendorId s", "compileVendorId []"),
("flVersion", "FLVersionParser", "FLVersionCompiler", "flVersion", "parseFLVersion", "fun _ d => compileFLVersion d", None),
("glyphEncoding", "GlyphEncodingParser", "GlyphEncodingCompiler", "encoding", "parseGlyphEncoding", "fun _ d => compileGlyphEncoding d", None),
("int16", "Int16Parser", "Int16Compiler", "int", "parseInt16", "fun _ d => compileInt16 d", None),
("sint16", "SignedInt16Parser", "SignedInt16Compiler", "int", "parseSInt16", "fun _ d => compileSInt16 d", None),
("sint32", "SignedInt32Parser", "SignedInt32Compiler", "int", "parseSInt32", "fun _ d => compileSInt32 d", None),
("double", "DoubleParser", "DoubleCompiler", "double", "parseDouble", "fun _ d => compileDouble d", None),
("doubleList", "DoubleListParser", "DoubleListCompiler", "doubles", "parseDoubleList", "fun _ d => compileDoubleList d", None),
("intList", "IntListParser", "IntListCompiler", "ints", "parseIntList", "fun _ d => compileIntList d", None),
("panose", "PanoseParser", "PanoseCompiler", "ints", "parsePanose", "fun _ d => compilePanose d", None),
("psGlobalOptions", "PostScriptGlobalHintingOptionsParser", "PostScriptGlobalHintingOptionsCompiler", "bitOptions", "parsePSGlobalOptions", "fun _ d => compilePSGlobalOptions d", None),
("psGlyphOptions", "PostScriptGlyphHintingOptionsParser", "PostScriptGlyphHintingOptionsCompiler", "bitOptions", "parsePSGlyphOptions", "fun _ d => compilePSGlyphOptions d", None),
("valueListCount", "EncodedValueListWithCountParser", "EncodedValueListWithCountCompiler", "ints", "parseValueListCount", "fun _ d => compileValueListCount d", None),
("valueList", "EncodedValueListParser", "EncodedValueListCompiler", "ints", "parseValueList", "fun _ d => compileValueList d", None),
("gasp", "GaspParser", "GaspCompiler", "gasp", "parseGasp", "fun _ d => compileGasp d", None),
("ttInfo", "TrueTypeInfoParser", "TrueTypeInfoCompiler", "ttInfo", "parseTTInfo", "fun _ d => compileTTInfo d", None),
("vdmx", "VdmxParser", "VdmxCompiler", "vdmx", "parseVdmx", "fun _ d => compileVdmx d", None),
("ttPpems23", "TrueTypeStemPpems23Parser", "TrueTypeStemPpems23Compiler", "ttPpems", "parseTTPpems23", "fun _ d => compileTTPpems23 d", None),
("ttPpems", "TrueTypeStemPpemsParser", "TrueTypeStemPpemsCompiler", "ttPpems", "parseTTPpems", "fun _ d => compileTTPpems d", None),
("ttStems", "TrueTypeStemsParser", "TrueTypeStemsCompiler", "ttStems", "parseTTStems", "fun _ d => compileTTStems d", None),
("ttPpems1", "TrueTypeStemPpems1Parser", "TrueTypeStemPpems1Compiler", "ttPpems", "ctx: parseTTPpems1 ctx.ttStemsV_count ctx.ttStemsH_count", "fun _ d => compileTTPpems1 d", None),
("ttZones", "TrueTypeZonesParser", "TrueTypeZonesCompiler", "ttZones", "parseTTZones", "fun _ d => compileTTZones d", None),
("ttDeltas", "TrueTypeZoneDeltasParser", "TrueTypeZoneDeltasCompiler", "ttDeltas", "parseTTDeltas", "fun _ d => compileTTDeltas d", None),
("unicodeRanges", "UnicodeRangesParser", "UnicodeRangesCompiler", "ints", "parseUnicodeRanges", "fun _ d => compileUnicodeRanges d", None),
("nameRecords", "NameRecordsParser", "NameRecordsCompiler", "names", "parseNameRecords", "fun _ d => compileNameRecords d", None),
("cmaps", "CustomCmapParser", "CustomCmapCompiler", "cmaps", "parseCmaps", "fun _ d => compileCmaps d", None),
("pclt", "PcltParser", "PcltCompiler", "pclt", "parsePclt", "fun _ d => compilePclt d", None),
("metricsFlags", "OpenTypeMetricsClassFlagsParser", "OpenTypeMetricsClassFlagsCompiler", "metricsFlags", "parseMetricsFlags", "fun _ d => compileMetricsFlags d", None),
("kerningFlags", "OpenTypeKerningClassFlagsParser", "OpenTypeKerningClassFlagsCompiler", "kerningFlags", "parseKerningFlags", "fun _ d => compileKerningFlags d", None),
("binaryTable", "BinaryTableParser", "BinaryTableCompiler", "binaryTable", "parseBinaryTable", "fun _ d => compileBinaryTable d", None),
("fea", "OpenTypeStringParser", "OpenTypeStringCompiler", "lines", "parseFea", "fun _ d => compileFea d", None),
("aniso", "AnisotropicInterpolationsParser", "AnisotropicInterpolationsCompiler", "aniso", "parseAniso", "fun _ d => compileAniso d", None),
("axisCounts", "AxisMappingsCountParser", "AxisMappingsCountCompiler", "ints", "parseAxisCounts", "fun _ d => compileAxisCounts d", None),
("axisMappings", "AxisMappingsParser", "AxisMappingsCompiler", "axisMappings", "parseAxisMappings", "fun _ d => compileAxisMappings d", None),
("masterLocation", "MasterLocationParser", "MasterLocationCompiler", "location", "parseMasterLocation", "fun _ d => compileMasterLocation d", None),
("instances", "PrimaryInstancesParser", "PrimaryInstancesCompiler", "instances", "parseInstances", "fun _ d => compileInstances d", None),
("psInfo", "PostScriptInfoParser", "PostScriptInfoCompiler", "psInfo", "parsePSInfo", "fun _ d => compilePSInfo d", None),
("globalGuides", "GlobalGuidesParser", "GuidesCompiler", "guides", "ctx: parseGlobalGuides ops ctx.num_masters.toNat", "fun ctx d => compileGuides ops ctx.num_masters.toNat d", None),
("guideProps", "GuidePropertiesParser", "GuidePropertiesCompiler", "guideProps", "parseGuideProps", "fun _ d => compileGuideProps d", None),
("globalMask", "GlobalMaskParser", "GlobalMaskCompiler", "globalMask", "parseGlobalMask", "fun _ d => compileGlobalMask d", None),
("glyph", "GlyphParser", "GlyphCompiler", "glyph", "parseGlyph ops asm", "fun ctx d => compileGlyph ops asm ctx.num_masters.toNat d", None),
("links", "LinkParser", "LinksCompiler", "links", "parseLinks", "fun _ d => compileLinks d", None),
("background", "BackgroundBitmapParser", "BackgroundBitmapCompiler", "background", "ctx: parseBackground (ctx.writer_platform = lit \"windows\")", "fun ctx d => compileBackground (ctx.writer_platform = lit \"windows\") d", None),
("bitmaps", "GlyphBitmapsParser", "GlyphBitmapsCompiler", "bitmaps", "ctx: parseGlyphBitmaps (ctx.writer_platform = lit \"windows\")", "fun ctx d => compileGlyphBitmaps (ctx.writer_platform = lit \"windows\") d", None),
("sketch", "GlyphSketchParser", "GlyphSketchCompiler", "sketch", "parseSketch", "fun _ d => compileSketch d", None),
("mask", "MaskParser", "MaskCompiler", "mask", "parseMask", "fun _ d => compileMask d", None),
("maskMetrics", "MaskMetricsParser", "MaskMetricsCompiler", "pair", "parseMaskMetrics", "fun _ d => compileMaskMetrics d", None),
("maskMetricsMM", "MaskMetricsMMParser", "MaskMetricsMMCompiler", "pairs", "ctx: parseMaskMetricsMM ctx.num_masters.toNat", "fun _ d => compileMaskMetricsMM d", None),
("origin", "GlyphOriginParser", "GlyphOriginCompiler", "origin", "parseOrigin", "fun _ d => compileOrigin d", None),
("unicodes", "GlyphUnicodeParser", "GlyphUnicodesCompiler", "ints", "parseUnicodes", "fun _ d => compileUnicodes d", None),
("unicodesSupp", "GlyphUnicodeSuppParser", "GlyphUnicodesSuppCompiler", "ints", "parseUnicodesSupp", "fun _ d => compileUnicodesSupp d", None),
("gdef", "GlyphGDEFParser", "GlyphGDEFCompiler", "gdef", "parseGdef", "fun _ d => compileGdef d", None),
("anchorsSupp", "GlyphAnchorsSuppParser", "GlyphAnchorsSuppCompiler", "anchorsSupp", "parseAnchorsSupp", "fun _ d => compileAnchorsSupp d", None),
("anchors", "GlyphAnchorsParser", "GlyphAnchorsCompiler", "anchors", "parseAnchors", "fun ctx d => compileAnchors ctx.num_masters.toNat d", None),
("fontOptions", "FontOptionsParser", "FontOptionsCompiler", "fontOptions", "parseFontOptions", "fun _ d => compileFontOptions d", None),
("exportOptions", "ExportOptionsParser", "ExportOptionsCompiler", "exportOptions", "parseExportOptions", "fun _ d => compileExportOptions d", None),
("mappingMode", "MappingModeParser", "MappingModeCompiler", "mappingMode", "parseMappingMode", "fun _ d => compileMappingMode d", None),
("kernPair", "MMKernPairParser", "MMKernPairCompiler", "kernPair", "ctx: parseKernPair ctx.num_masters.toNat", "fun _ d => compileKernPair d", None),
]
T = {"str": "PyStr", "flVersion": "FLVersion", "encoding": "Int × PyStr", "int": "Int", "double": "Dbl", "doubles": "List Dbl", "ints": "List Int",
 "bitOptions": "BitOptions", "gasp": "List GaspRec", "ttInfo": "TTInfo", "vdmx": "List VdmxRec", "ttPpems": "TTStems TTPpem", "ttStems": "TTStems TTStem",
 "ttZones": "TTZones", "ttDeltas": "TTDeltas", "names": "List NameRecord", "cmaps": "List CustomCmap", "pclt": "Pclt",
 "metricsFlags": "List (PyStr × (Int × Int × Int))", "kerningFlags": "List (PyStr × (Int × Int))", "binaryTable": "BinaryTable", "lines": "List PyStr",
 "aniso": "List (List (Int × Int))", "axisMappings": "List (Dbl × Dbl)", "location": "Int × List Dbl", "instances": "List PrimaryInstance",
 "psInfo": "PSInfo", "guides": "MMGuides A", "guideProps": "GuideProps", "globalMask": "GlobalMask", "glyph": "Glyph A ASM", "links": "Links",
 "background": "BackgroundImage", "bitmaps": "List GlyphBitmap", "sketch": "List (Int × Int × Int)", "mask": "Mask", "pair": "Int × Int",
 "pairs": "List (Int × Int)", "origin": "Int × Int", "gdef": "Gdef", "anchorsSupp": "List AnchorProps", "anchors": "List MMAnchor",
 "fontOptions": "List (PyStr × FontOpt)", "exportOptions": "List ExportOption", "mappingMode": "MappingMode", "kernPair": "KernPairData"}
o = []
o.append('''import Verif.Model.Container
import Verif.Model.Base
import Verif.Model.Numeric
import Verif.Model.TextEntries
import Verif.Model.Options
import Verif.Model.Ps
import Verif.Model.TrueType
import Verif.Model.Mm
import Verif.Model.GlyphEntries
import Verif.Model.Glyph
import Verif.Model.Bitmap
import Verif.Model.Merge
/-! The table of entry ids with their parser and compiler classes — constants.py:144-324 with the ids of enum.py — and the
container instantiated with it.  (Written by tools/gen_table.py, which copies ids, keys and class names from /repo.) -/
set_option autoImplicit false
namespace Verif

/-- The pairs of parser and compiler classes that occur in the table. -/
inductive Kind where''')
for k in K:
    o.append(f"  /-- `{k[1]}`, `{k[2]}` -/\n  | {k[0]}")
o.append("  deriving DecidableEq, Repr\n")
o.append('''/-- What an entry may be decompiled to (`EntryDecompiled`, typing.py).  `A`: angles, `ASM`: assembly of TrueType instructions. -/
inductive Decompiled (A ASM : Type) where''')
for c, t in T.items():
    o.append(f"  | {c} (d : {t})")
o.append("")
o.append('''/-- A parser class with its compiler class: the Python type of the data as a part of `Decompiled`, the parser, the compiler, and
what the compiler does with `None`. -/
structure EntryClass (D : Type) where
  Ty : Type
  inj : Ty → D
  proj : D → Option Ty
  parse : Ctx → R Ty
  compile : Ctx → Ty → W
  compileNone : W

section
variable (ops : AngleOps) (asm : AsmOps)

/-- the classes; `None` raises TypeError or AttributeError in most compilers (represented as `type`) -/
def Kind.cls : Kind → EntryClass (Decompiled ops.Angle asm.Asm)''')
for name, p, c, con, parse, comp, none in K:
    ty = T[con].replace("MMGuides A", "MMGuides ops.Angle").replace("Glyph A ASM", "Glyph ops.Angle asm.Asm")
    if parse.startswith("ctx: "):
        pp = "fun ctx => " + parse[5:]
    else:
        pp = "fun _ => " + parse
    if name == "kernPair":
        inj = "fun d => match d with\n        | .ints l => .ints l\n        | d => .kernPair d"
        proj = "fun d => match d with\n        | .kernPair d => some d\n        | .ints l => some (.ints l)\n        | _ => none"
    else:
        inj = f".{con}"
        proj = f"fun d => match d with\n        | .{con} d => some d\n        | _ => none"
    o.append(f"  | .{name} =>\n    {{ Ty := {ty}\n      inj := {inj}\n      proj := {proj}\n      parse := {pp}\n      compile := {comp}\n      compileNone := {none or '.error .type'} }}")
o.append("\nend\n")
kinds = {(k[1], k[2]): k[0] for k in K}
o.append("/-- `parser_classes` — constants.py:144-324: id, key, classes -/\ndef parserClasses : List (Int × String × Kind) := [")
o.append(",\n".join(f'  ({i}, "{n}", .{kinds[(p, c)]})' for i, n, p, c, _ in rows) + "]\n")
o.append('''/-- `parser_classes.get(id)` — vfb/entry.py:139 -/
def kindOf (id : Int) : Option Kind := (parserClasses.find? fun r => r.1 == id).map fun r => r.2.2

section
variable (ops : AngleOps) (asm : AsmOps)

/-- `parser()._parse` by id, ids that are not in the table use `BaseParser` — vfb/entry.py:139-149 -/
def tableParse (id : Int) (ctx : Ctx) : R (Decompiled ops.Angle asm.Asm) :=
  match kindOf id with
  | some k => do
    let a ← (k.cls ops asm).parse ctx
    pure ((k.cls ops asm).inj a)
  | none => do
    let s ← parseHex
    pure (.str s)

/-- `compiler()._compile` of a class; data of another type than the compiler expects are represented as a TypeError (the code may raise
another exception, or accept data of similar type such as a tuple for a list) -/
def Kind.compileData (k : Kind) (ctx : Ctx) (data : Option (Decompiled ops.Angle asm.Asm)) : W :=
  match data with
  | none => (k.cls ops asm).compileNone
  | some d => match (k.cls ops asm).proj d with
    | some a => (k.cls ops asm).compile ctx a
    | none => .error .type

/-- the compiler by id, if there is one -/
def tableCompile (id : Int) : Option (Ctx → Option (Decompiled ops.Angle asm.Asm) → W) :=
  (kindOf id).map fun k => k.compileData ops asm

/-- `compiler.merge` — compilers/glyph.py:78-104; the other compilers do nothing (compilers/base.py:205-217) -/
def tableMerge (id : Int) (masters : List MasterData) (data : Option (Decompiled ops.Angle asm.Asm)) :
    Option (Decompiled ops.Angle asm.Asm) × Option PyErr :=
  if id = 2001 then
    match data with
    | some (.glyph g) =>
      match mergeGlyph masters ⟨g.nodes, g.components⟩ with
      | (r, e) => (some (.glyph { g with nodes := r.nodes, components := r.components }), e)
    | d => (d, if masters.length < 2 then none else some .type)
  else (data, none)

/-- `get_empty_glyph` — templates/glyph.py:4-10 -/
def emptyGlyph (A ASM : Type) (n : Int) : Glyph A ASM :=
  { name := some []
    numMasters := some n
    nodes := some []
    metrics := some (List.replicate n.toNat (0, 0))
    hints := none
    guides := none
    components := none
    kerning := none
    imported := none
    tth := none }

/-- the actual table.  `platform`, `masters` and `stems` are what vfb/vfb.py:254-279 looks at in the entries FL Version, Master Count and
TrueType Stems, the name is that of a glyph entry (`data["name"]`, "" if there is none). -/
def vfbCodec : Codec (Decompiled ops.Angle asm.Asm) (List MasterData) where
  parse := tableParse ops asm
  compile := tableCompile ops asm
  merge := tableMerge ops asm
  platform d := match d with
    | .flVersion v => v.platform
    | _ => []
  masters d := match d with
    | .int n => n
    | _ => 0
  stems d := match d with
    | .ttStems t => (t.ttStemsV.length, t.ttStemsH.length)
    | _ => (0, 0)
  emptyGlyph n := .glyph (emptyGlyph ops.Angle asm.Asm n)
  glyphName d := match d with
    | .glyph g => g.name.getD []
    | _ => []

end

end Verif''')
open("/verif/lean/Verif/Model/Table.lean", "w").write("\n".join(o) + "\n")
print(len(rows), "rows", len(K), "kinds", {k[0] for k in K} - {kinds[(p,c)] for _,_,p,c,_ in rows})

import Verif.Spec.EndToEnd
import Verif.Spec.UfoGlyph
/-! Vocabulary for C104: which entries of a font the conversion to UFO looks at. -/
set_option autoImplicit false
namespace Verif.Spec
open Verif

/-- glyphs, the entries that belong to a glyph, and TrueType stems and zones -/
def glyphIds : List Int :=
  [2001, 2023, 1250, 1253, 2008, 2012, 2015, 2017, 2018, 2029, 2031, 2007, 2013, 2009, 2011, 2028, 1255, 1273, 1268, 1524, 1269]

/-- axes, masters, instances, PostScript info of the masters, global guides -/
def masterIds : List Int :=
  [1254, 1294, 1296, 1503, 1504, 1505, 1513, 1514, 1515, 1516, 1523, 1530, 1531, 1532, 1533, 1534, 1535, 1536]

/-- classes, their flags, and feature code -/
def classIds : List Int := [1276, 1277, 2026]

/-- font info, user data, TrueType tables -/
def infoIds : List Int :=
  [1024, 1025, 1026, 1027, 1028, 1029, 1030, 1031, 1034, 1037, 1038, 1039, 1044, 1048, 1061, 1062, 1063, 1064, 1065, 1066, 1069, 1070, 1090,
   1092, 1118, 1121, 1127, 1128, 1129, 1130, 1131, 1132, 1135, 1137, 1138, 1140, 1261, 1262, 1263, 1264, 1265, 1267, 1270, 1272, 1274, 1275,
   1278, 1279, 1604, 2016, 2021, 2024, 2025]

/-- the entries of the given ids that the conversion does not ignore, in their order -/
def partOf {α : Type} (idOf : α → Int) (o : BuildOpts) (ids : List Int) (es : List α) : List α :=
  es.filter fun e => decide (idOf e ∈ ids ∧ idOf e ∉ ignoredIds o)

/-- Two lists of entries have the same glyphs (with what belongs to them), the same masters, the same classes and the same font info, each in the
same order.  Nothing is said about other entries, about ignored ones, nor about the order of, say, a glyph and a class. -/
structure SameParts {α : Type} (idOf : α → Int) (o : BuildOpts) (es es' : List α) : Prop where
  glyphs : partOf idOf o glyphIds es = partOf idOf o glyphIds es'
  masters : partOf idOf o masterIds es = partOf idOf o masterIds es'
  classes : partOf idOf o classIds es = partOf idOf o classIds es'
  info : partOf idOf o infoIds es = partOf idOf o infoIds es'

end Verif.Spec

import Verif.Model.UfoInfo
import Verif.Spec.UfoMasters
import Verif.Spec.Ufo
import Verif.Spec.Entry
/-! Specification vocabulary for C78–C80: font info and lib. -/
set_option autoImplicit false
namespace Verif.Spec
open Verif

/-- the positions of the set bits of a number that is not negative, in increasing order -/
def IsBits (n : Int) (bits : List Int) : Prop :=
  0 ≤ n ∧ bits.Pairwise (· < ·) ∧ ∀ i : Int, i ∈ bits ↔ 0 ≤ i ∧ n.toNat.testBit i.toNat = true

/-- the entries that are copied to an attribute: texts, numbers, the panose list -/
def copiedAttributes : List (Int × PyStr) :=
  [(1025, lit "postscriptFullName"), (1026, lit "postscriptFontName"), (1027, lit "styleMapFamilyName"), (1028, lit "weightName"),
   (1029, lit "italicAngle"), (1030, lit "postscriptUnderlinePosition"), (1031, lit "postscriptUnderlineThickness"),
   (1037, lit "copyright"), (1038, lit "openTypeNameDescription"), (1039, lit "openTypeNameManufacturer"),
   (1044, lit "postscriptUniqueID"), (1061, lit "trademark"), (1062, lit "openTypeNameDesigner"),
   (1063, lit "openTypeNameDesignerURL"), (1064, lit "openTypeNameManufacturerURL"), (1065, lit "widthName"),
   (1066, lit "postscriptDefaultCharacter"), (1069, lit "openTypeNameLicense"), (1070, lit "openTypeNameLicenseURL"),
   (1090, lit "macintoshFONDFamilyID"), (1092, lit "macintoshFONDName"), (1118, lit "openTypeOS2Panose"),
   (1121, lit "openTypeOS2VendorID"), (1128, lit "openTypeNameVersion"), (1129, lit "openTypeNameUniqueID"),
   (1130, lit "versionMajor"), (1131, lit "versionMinor"), (1132, lit "year"), (1135, lit "unitsPerEm"),
   (1140, lit "openTypeNameSampleText"), (1270, lit "openTypeHheaLineGap"), (1278, lit "openTypeHheaAscender"),
   (1279, lit "openTypeHheaDescender"), (2025, lit "note")]

/-- the numbers of the TrueType info that are copied to an attribute -/
def copiedNumbers : List (Int × PyStr) :=
  [(0x3C, lit "openTypeHeadLowestRecPPEM"), (0x3F, lit "openTypeOS2WidthClass"), (0x41, lit "openTypeOS2SubscriptXSize"),
   (0x42, lit "openTypeOS2SubscriptYSize"), (0x43, lit "openTypeOS2SubscriptXOffset"), (0x44, lit "openTypeOS2SubscriptYOffset"),
   (0x45, lit "openTypeOS2SuperscriptXSize"), (0x46, lit "openTypeOS2SuperscriptYSize"), (0x47, lit "openTypeOS2SuperscriptXOffset"),
   (0x48, lit "openTypeOS2SuperscriptYOffset"), (0x49, lit "openTypeOS2StrikeoutSize"), (0x4A, lit "openTypeOS2StrikeoutPosition"),
   (0x4D, lit "openTypeOS2TypoAscender"), (0x4E, lit "openTypeOS2TypoDescender"), (0x4F, lit "openTypeOS2TypoLineGap"),
   (0x51, lit "openTypeOS2WinAscent"), (0x52, lit "openTypeOS2WinDescent")]

/-- the attributes of a font whose file says nothing about them -/
def defaultAttributes : List (PyStr × InfoVal) :=
  [(lit "familyName", .str (lit "Untitled")), (lit "guidelines", .guides []), (lit "italicAngle", .int 0),
   (lit "openTypeGaspRangeRecords", .gasp []), (lit "openTypeHeadCreated", .none), (lit "openTypeHeadFlags", .ints []),
   (lit "openTypeHheaLineGap", .int 0), (lit "openTypeHeadLowestRecPPEM", .int 0), (lit "openTypeNameDescription", .str []),
   (lit "openTypeNamePreferredFamilyName", .str []), (lit "openTypeNamePreferredSubfamilyName", .str []),
   (lit "openTypeNameRecords", .none), (lit "openTypeNameSampleText", .str []), (lit "openTypeOS2FamilyClass", .ints [0, 0]),
   (lit "openTypeOS2Selection", .ints []), (lit "openTypeOS2SubscriptXSize", .int 0), (lit "openTypeOS2SubscriptYSize", .int 0),
   (lit "openTypeOS2SubscriptXOffset", .int 0), (lit "openTypeOS2SubscriptYOffset", .int 0),
   (lit "openTypeOS2SuperscriptXSize", .int 0), (lit "openTypeOS2SuperscriptYSize", .int 0),
   (lit "openTypeOS2SuperscriptXOffset", .int 0), (lit "openTypeOS2SuperscriptYOffset", .int 0),
   (lit "openTypeOS2StrikeoutPosition", .int 0), (lit "openTypeOS2StrikeoutSize", .int 0), (lit "openTypeOS2Type", .ints []),
   (lit "openTypeOS2UnicodeRanges", .ints []), (lit "openTypeOS2WeightClass", .int 400), (lit "openTypeOS2WidthClass", .int 5),
   (lit "postscriptBlueValues", .ints []), (lit "postscriptDefaultWidthX", .none), (lit "postscriptFamilyBlues", .ints []),
   (lit "postscriptFamilyOtherBlues", .ints []), (lit "postscriptFontName", .str (lit "Untitled-Regular")),
   (lit "postscriptForceBold", .bool false), (lit "postscriptFullName", .str (lit "Untitled Regular")),
   (lit "postscriptIsFixedPitch", .bool false), (lit "postscriptNominalWidthX", .none), (lit "postscriptOtherBlues", .ints []),
   (lit "postscriptStemSnapH", .none), (lit "postscriptStemSnapV", .none), (lit "postscriptUnderlinePosition", .int 0),
   (lit "postscriptUnderlineThickness", .int 0), (lit "postscriptWeightName", .str (lit "Regular")),
   (lit "styleMapFamilyName", .str (lit "Untitled")), (lit "styleMapStyleName", .str (lit "regular")),
   (lit "styleName", .str (lit "Regular")), (lit "openTypeOS2TypoAscender", .int 0), (lit "openTypeOS2TypoDescender", .int 0),
   (lit "openTypeOS2TypoLineGap", .int 0), (lit "openTypeOS2WinAscent", .int 0), (lit "openTypeOS2WinDescent", .int 0),
   (lit "openTypeOS2CodePageRanges", .ints [])]

/-- the numbers of the TrueType info that go to the TrueType instructions of the lib -/
def maxpNames : List (Int × PyStr) :=
  [(0x33, lit "maxZones"), (0x34, lit "maxTwilightPoints"), (0x35, lit "maxStorage"), (0x36, lit "maxFunctionDefs"),
   (0x37, lit "maxInstructionDefs"), (0x38, lit "maxStackElements")]

/-- The control values in a sequence of bytes: pairs of bytes are signed 16-bit numbers, low byte first; the keys are the decimal indices. -/
def IsCvt (b : Bytes) (d : List (PyStr × Int)) : Prop :=
  b.length = 2 * d.length ∧
  ∀ (i : Nat) (lo hi : UInt8), b[2 * i]? = some lo → b[2 * i + 1]? = some hi →
    ∃ v : Int, d[i]? = some (natDec i, v) ∧ -32768 ≤ v ∧ v < 32768 ∧ v % 65536 = lo.toNat + 256 * hi.toNat

/-- the style map name for the style bits, if one of them is set -/
def styleName (regular bold italic : Bool) : Option PyStr :=
  match regular, bold, italic with
  | true, _, true => some (lit "regular italic")
  | true, _, false => some (lit "regular")
  | false, true, true => some (lit "bold italic")
  | false, true, false => some (lit "bold")
  | false, false, true => some (lit "italic")
  | false, false, false => none

section
variable (fmt : Int → PyStr)

/-- What an item of the TrueType info says about an attribute.  `fmt` formats a time (microseconds since 1970). -/
inductive SaysTT : Int → TTVal → PyStr → InfoVal → Prop
  | copied {key : Int} {attr : PyStr} (h : (key, attr) ∈ copiedNumbers) (v : Int) : SaysTT key (.int v) attr (.int v)
  | created (v : Int) (h : IsInt32 v) : SaysTT 0x56 (.int v) (lit "openTypeHeadCreated") (.str (fmt (1000000 * max 0 (flSeconds v))))
  | embedding (v : Int) (bits : List Int) (h : IsBits v bits) : SaysTT 0x40 (.int v) (lit "openTypeOS2Type") (.ints bits)
  | familyClass (v c s : Int) (h : v = 256 * c + s) (hs : 0 ≤ s ∧ s < 256) :
      SaysTT 0x4B (.int v) (lit "openTypeOS2FamilyClass") (.ints [c, s])
  | averageWidth (v : Int) (h : v ≠ 0) : SaysTT 0x5C (.int v) (lit "postscriptNominalWidthX") (.int |v|)
  | headFlags (flags : List Int) (options : List PyStr) : SaysTT 0x39 (.flags flags options) (lit "openTypeHeadFlags") (.ints flags)
  | codePages (a b : Int) (la lb : List Int) (ha : IsBits a la) (hb : IsBits b lb) (hne : la ++ lb ≠ []) :
      SaysTT 0x54 (.codepages a b) (lit "openTypeOS2CodePageRanges") (.ints (la ++ lb.map fun i => i + 32))

variable (ops : AngleOps) (asm : AsmOps)

/-- the value of an attribute is the data of the entry -/
inductive IsData : Decompiled ops.Angle asm.Asm → InfoVal → Prop
  | str (s : PyStr) : IsData (.str s) (.str s)
  | int (v : Int) : IsData (.int v) (.int v)
  | double (d : Dbl) : IsData (.double d) (.double d)
  | ints (l : List Int) : IsData (.ints l) (.ints l)

/-- What an entry of the file says about an attribute of the font info. -/
inductive Says : Int → Decompiled ops.Angle asm.Asm → PyStr → InfoVal → Prop
  | copied {id : Int} {attr : PyStr} {d : Decompiled ops.Angle asm.Asm} {v : InfoVal} (h : (id, attr) ∈ copiedAttributes)
      (hv : IsData ops asm d v) : Says id d attr v
  | family (s : PyStr) : Says 1024 (.str s) (lit "familyName") (.str s)
  | prefFamily (s : PyStr) : Says 1024 (.str s) (lit "openTypeNamePreferredFamilyName") (.str s)
  | fixedPitch (v : Int) (b : Bool) (h : b = true ↔ v ≠ 0) : Says 1034 (.int v) (lit "postscriptIsFixedPitch") (.bool b)
  | weight (v w : Int) (h1 : 1 ≤ w ∧ w ≤ 1000) (h2 : 1 ≤ v → v ≤ 1000 → w = v) (h3 : v < 1 → w = 1) (h4 : 1000 < v → w = 1000) :
      Says 1048 (.int v) (lit "openTypeOS2WeightClass") (.int w)
  | weightName (s : PyStr) : Says 1127 (.str s) (lit "postscriptWeightName") (.str s)
  | style (s : PyStr) : Says 1137 (.str s) (lit "styleName") (.str s)
  | prefStyle (s : PyStr) : Says 1137 (.str s) (lit "openTypeNamePreferredSubfamilyName") (.str s)
  | names (l : List NameRecord) : Says 1138 (.names l) (lit "openTypeNameRecords") (.names l)
  | trueType (d : TTInfo) {key : Int} {val : TTVal} {attr : PyStr} {v : InfoVal} (h : (key, val) ∈ d) (hv : SaysTT fmt key val attr v) :
      Says 1264 (.ttInfo d) attr v
  | gasp (l : List GaspRec) (l' : List (Int × List Int)) (h : List.Forall₂ (fun r g => g.1 = r.maxPpem ∧ IsBits r.flags g.2) l l') :
      Says 1265 (.gasp l) (lit "openTypeGaspRangeRecords") (.gasp l')
  | selection (v : Int) (bits : List Int) (h : IsBits v bits) :
      Says 1267 (.int v) (lit "openTypeOS2Selection") (.ints (bits.filter fun b => b ≠ 0 ∧ b ≠ 5 ∧ b ≠ 6))
  | styleMap (v : Int) (name : PyStr) (hv : 0 ≤ v) (h : styleName (v.toNat.testBit 6) (v.toNat.testBit 5) (v.toNat.testBit 0) = some name) :
      Says 1267 (.int v) (lit "styleMapStyleName") (.str name)
  | ranges (l : List Int) : Says 2021 (.ints l) (lit "openTypeOS2UnicodeRanges") (.ints l)

/-- What an entry of the file says about the TrueType instructions in the lib. -/
inductive SaysLib : Int → Decompiled ops.Angle asm.Asm → PyStr → LibVal asm.Asm → Prop
  | maxp (d : TTInfo) {key v : Int} {name : PyStr} (h : (key, .int v) ∈ d) (hk : (key, name) ∈ maxpNames) :
      SaysLib 1264 (.ttInfo d) name (.int v)
  | cvt (s : PyStr) (b : Bytes) (l : List (PyStr × Int)) (hs : deHexStr s = .ok b) (h : IsCvt b l) :
      SaysLib 1261 (.str s) (lit "controlValue") (.cvt l)
  | prep (s : PyStr) (b : Bytes) (a : asm.Asm) (hs : deHexStr s = .ok b) (h : asm.disassemble b = .ok a) :
      SaysLib 1262 (.str s) (lit "controlValueProgram") (.asm a)
  | fpgm (s : PyStr) (b : Bytes) (a : asm.Asm) (hs : deHexStr s = .ok b) (h : asm.disassemble b = .ok a) :
      SaysLib 1263 (.str s) (lit "fontProgram") (.asm a)

/-- What an entry of the file says about the numbers of the TrueType hinting; usual values are not mentioned. -/
inductive SaysTth : Int → Decompiled ops.Angle asm.Asm → PyStr → Int → Prop
  | snap (v : Int) (h : v ≠ 68) : SaysTth 1272 (.int v) (lit "stemsnaplimit") v
  | zone (v : Int) (h : v ≠ 48) : SaysTth 1274 (.int v) (lit "zoneppm") v
  | code (v : Int) : SaysTth 1275 (.int v) (lit "codeppm") v
  | dropout (v : Int) (h : v ≠ 255) : SaysTth 1604 (.int v) (lit "dropoutppm") v

/-- the entries that are not ignored and have got data -/
def effective (o : BuildOpts) (es : List (FEntry ops asm)) : List (Int × Decompiled ops.Angle asm.Asm) :=
  es.filterMap fun e => if e.1 ∈ ignoredIds o then none else e.2.map fun d => (e.1, d)

/-- The value is what the last of the entries says that says something; otherwise it is the default. -/
def LastSaid {V : Type} (l : List (Int × Decompiled ops.Angle asm.Asm)) (S : Int → Decompiled ops.Angle asm.Asm → V → Prop)
    (default value : Option V) : Prop :=
  (∃ before id d after v, l = before ++ (id, d) :: after ∧ S id d v ∧ (∀ e ∈ after, ∀ w, ¬ S e.1 e.2 w) ∧ value = some v) ∨
  ((∀ e ∈ l, ∀ w, ¬ S e.1 e.2 w) ∧ value = default)

/-- the entry can be converted -/
inductive Convertible : Int → Decompiled ops.Angle asm.Asm → Prop
  | trueType (d : TTInfo) (h1 : ∀ v, (0x56, .int v) ∈ d → IsInt32 v) (h2 : ∀ v, (0x40, .int v) ∈ d → 0 ≤ v)
      (h3 : ∀ a b, (0x54, .codepages a b) ∈ d → 0 ≤ a ∧ 0 ≤ b) : Convertible 1264 (.ttInfo d)
  | gasp (l : List GaspRec) (h : ∀ r ∈ l, 0 ≤ r.flags) : Convertible 1265 (.gasp l)
  | style (v : Int) (h : 0 ≤ v) : Convertible 1267 (.int v)
  | cvt (s : PyStr) (b : Bytes) (hs : deHexStr s = .ok b) (h : b.length % 2 = 0) : Convertible 1261 (.str s)
  | program (id : Int) (s : PyStr) (b : Bytes) (a : asm.Asm) (hid : id = 1262 ∨ id = 1263) (hs : deHexStr s = .ok b)
      (h : asm.disassemble b = .ok a) : Convertible id (.str s)
  | other (id : Int) (d : Decompiled ops.Angle asm.Asm) (h : id ∉ [1264, 1265, 1267, 1261, 1262, 1263]) : Convertible id d

end
end Verif.Spec

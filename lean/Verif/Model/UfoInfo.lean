import Verif.Model.UfoMasters
import Verif.Model.UfoTime
import Verif.Model.UfoGuides
/-! Model of the font info: `ufo/info.py` and the entries of `ufo/builder.py` that set it.  The attributes of the `Info` object are a dict
from attribute name to value (`setattr`); an attribute that is not in the dict is `None`.  What ufoLib2 does with the attributes is not
modelled.  Log messages are not modelled. -/
set_option autoImplicit false
namespace Verif

/-- a value of an attribute — ufo/info.py:42-106, 230-231 -/
inductive InfoVal where
  | none
  | bool (b : Bool)
  | int (v : Int)
  | double (d : Dbl)
  | str (s : PyStr)
  | ints (l : List Int)
  | names (l : List NameRecord)
  | gasp (l : List (Int × List Int))
  | guides (l : List UfoGuide)
  deriving DecidableEq, Repr

/-- the attributes of the info object — ufo/info.py:42-106 -/
abbrev Attrs := List (PyStr × InfoVal)

/-- the attributes that `VfbToUfoInfo.__init__` sets — ufo/info.py:42-106 (`WidthClass(5)` is an `IntEnum`, here 5) -/
def infoDefaults : Attrs :=
  [(lit "familyName", .str (lit "Untitled")), (lit "guidelines", .guides []), (lit "italicAngle", .int 0),
   (lit "openTypeGaspRangeRecords", .gasp []), (lit "openTypeHeadCreated", .none), (lit "openTypeHeadFlags", .ints []),
   (lit "openTypeHheaLineGap", .int 0), (lit "openTypeHeadLowestRecPPEM", .int 0), (lit "openTypeNameDescription", .str []),
   (lit "openTypeNamePreferredFamilyName", .str []), (lit "openTypeNamePreferredSubfamilyName", .str []),
   (lit "openTypeNameRecords", .none), (lit "openTypeNameSampleText", .str []), (lit "openTypeOS2FamilyClass", .ints [0, 0]),
   (lit "openTypeOS2Selection", .ints []), (lit "openTypeOS2SubscriptXSize", .int 0), (lit "openTypeOS2SubscriptYSize", .int 0),
   (lit "openTypeOS2SubscriptXOffset", .int 0), (lit "openTypeOS2SubscriptYOffset", .int 0),
   (lit "openTypeOS2SuperscriptXSize", .int 0), (lit "openTypeOS2SuperscriptYSize", .int 0),
   (lit "openTypeOS2SuperscriptXOffset", .int 0), (lit "openTypeOS2SuperscriptYOffset", .int 0),
   (lit "openTypeOS2StrikeoutPosition", .int 0), (lit "openTypeOS2StrikeoutSize", .int 0), (lit "openTypeOS2Type", .ints []),
   (lit "openTypeOS2UnicodeRanges", .ints []), (lit "openTypeOS2WeightClass", .int 400), (lit "openTypeOS2WidthClass", .int 5),
   (lit "postscriptBlueValues", .ints []), (lit "postscriptDefaultWidthX", .none), (lit "postscriptFamilyBlues", .ints []),
   (lit "postscriptFamilyOtherBlues", .ints []), (lit "postscriptFontName", .str (lit "Untitled-Regular")),
   (lit "postscriptForceBold", .bool false), (lit "postscriptFullName", .str (lit "Untitled Regular")),
   (lit "postscriptIsFixedPitch", .bool false), (lit "postscriptNominalWidthX", .none), (lit "postscriptOtherBlues", .ints []),
   (lit "postscriptStemSnapH", .none), (lit "postscriptStemSnapV", .none), (lit "postscriptUnderlinePosition", .int 0),
   (lit "postscriptUnderlineThickness", .int 0), (lit "postscriptWeightName", .str (lit "Regular")),
   (lit "styleMapFamilyName", .str (lit "Untitled")), (lit "styleMapStyleName", .str (lit "regular")),
   (lit "styleName", .str (lit "Regular")), (lit "openTypeOS2TypoAscender", .int 0), (lit "openTypeOS2TypoDescender", .int 0),
   (lit "openTypeOS2TypoLineGap", .int 0), (lit "openTypeOS2WinAscent", .int 0), (lit "openTypeOS2WinDescent", .int 0),
   (lit "openTypeOS2CodePageRanges", .ints [])]

/-- `self.mapping` — ufo/info.py:143-182: the entries whose data become an attribute as they are -/
def infoMapping : List (Int × PyStr) :=
  [(1025, lit "postscriptFullName"), (1026, lit "postscriptFontName"), (1027, lit "styleMapFamilyName"), (1028, lit "weightName"),
   (1029, lit "italicAngle"), (1030, lit "postscriptUnderlinePosition"), (1031, lit "postscriptUnderlineThickness"),
   (1037, lit "copyright"), (1038, lit "openTypeNameDescription"), (1039, lit "openTypeNameManufacturer"),
   (1044, lit "postscriptUniqueID"), (1061, lit "trademark"), (1062, lit "openTypeNameDesigner"),
   (1063, lit "openTypeNameDesignerURL"), (1064, lit "openTypeNameManufacturerURL"), (1065, lit "widthName"),
   (1069, lit "openTypeNameLicense"), (1070, lit "openTypeNameLicenseURL"), (1090, lit "macintoshFONDFamilyID"),
   (1092, lit "macintoshFONDName"), (1118, lit "openTypeOS2Panose"), (1140, lit "openTypeNameSampleText"),
   (1121, lit "openTypeOS2VendorID"), (1129, lit "openTypeNameUniqueID"), (1128, lit "openTypeNameVersion"),
   (1130, lit "versionMajor"), (1131, lit "versionMinor"), (1132, lit "year"), (1135, lit "unitsPerEm"),
   (1278, lit "openTypeHheaAscender"), (1279, lit "openTypeHheaDescender"), (1270, lit "openTypeHheaLineGap"), (2025, lit "note"),
   (1066, lit "postscriptDefaultCharacter")]

/-- `self.mapping_int` — ufo/info.py:184-212.  (The keys of the model are numbers, see `ttinfoNames`.) -/
def ttAttributes : List (Int × PyStr) :=
  [(0x3F, lit "openTypeOS2WidthClass"), (0x3C, lit "openTypeHeadLowestRecPPEM"), (0x41, lit "openTypeOS2SubscriptXSize"),
   (0x42, lit "openTypeOS2SubscriptYSize"), (0x43, lit "openTypeOS2SubscriptXOffset"), (0x44, lit "openTypeOS2SubscriptYOffset"),
   (0x45, lit "openTypeOS2SuperscriptXSize"), (0x46, lit "openTypeOS2SuperscriptYSize"), (0x47, lit "openTypeOS2SuperscriptXOffset"),
   (0x48, lit "openTypeOS2SuperscriptYOffset"), (0x49, lit "openTypeOS2StrikeoutSize"), (0x4A, lit "openTypeOS2StrikeoutPosition"),
   (0x4D, lit "openTypeOS2TypoAscender"), (0x4E, lit "openTypeOS2TypoDescender"), (0x4F, lit "openTypeOS2TypoLineGap"),
   (0x51, lit "openTypeOS2WinAscent"), (0x52, lit "openTypeOS2WinDescent")]

/-- `maxp_keys` — ufo/info.py:21-28 -/
def maxpKeys : List (Int × PyStr) :=
  [(0x33, lit "maxZones"), (0x34, lit "maxTwilightPoints"), (0x35, lit "maxStorage"), (0x36, lit "maxFunctionDefs"),
   (0x37, lit "maxInstructionDefs"), (0x38, lit "maxStackElements")]

/-- a value in "public.truetype.instructions": `asm` is the assembly before formatting
— ufo/info.py:352-356, ufo/instructions.py:4-27 -/
inductive LibVal (ASM : Type) where
  | str (s : PyStr)
  | int (v : Int)
  | cvt (d : List (PyStr × Int))
  | asm (a : ASM)

/-- The font info: attributes, "public.truetype.instructions" (`info.lib`), and the parts of the builder's lib that come directly from an
entry; `tth` are the numbers in "com.fontlab.v2.tth". — ufo/info.py:230-231 -/
structure InfoPart (ASM : Type) where
  attrs : Attrs
  tt : Option (List (PyStr × LibVal ASM))
  userData : Option PyStr
  metricsFlags : Option (List (PyStr × (Int × Int × Int)))
  tth : List (PyStr × Int)

/-- at the start — ufo/info.py:42-106 -/
def noInfo (ASM : Type) : InfoPart ASM := ⟨infoDefaults, none, none, none, []⟩

/-- `setattr(self, attr, value)` — ufo/info.py:230-231 -/
def InfoPart.setAttr {ASM : Type} (st : InfoPart ASM) (attr : PyStr) (v : InfoVal) : InfoPart ASM :=
  { st with attrs := dictSet st.attrs attr v }

/-- `set_tt_instructions(key, value)` — ufo/info.py:352-356 -/
def InfoPart.setTT {ASM : Type} (st : InfoPart ASM) (key : PyStr) (v : LibVal ASM) : InfoPart ASM :=
  { st with tt := some (dictSet (st.tt.getD [(lit "formatVersion", .str (lit "1"))]) key v) }

/-- `set_selection`: the style map name — ufo/info.py:268-276 -/
def styleParts (bits : List Int) : List PyStr :=
  (if bits.contains 6 then [lit "regular"] else if bits.contains 5 then [lit "bold"] else []) ++
    if bits.contains 0 then [lit "italic"] else []

/-- `" ".join(name_parts)` for at most two parts — ufo/info.py:256-276 -/
def joinParts : List PyStr → PyStr
  | [] => []
  | [x] => x
  | x :: l => x ++ lit " " ++ joinParts l

/-- `set_selection(data)` — ufo/info.py:256-276 -/
def setSelection {ASM : Type} (st : InfoPart ASM) (data : Int) : Except PyErr (InfoPart ASM) :=
  binaryToIntList data >>= fun bits =>
  let st := st.setAttr (lit "openTypeOS2Selection") (.ints (bits.filter fun b => !(b == 0 || b == 5 || b == 6)))
  .ok (if (styleParts bits).isEmpty then st else st.setAttr (lit "styleMapStyleName") (.str (joinParts (styleParts bits))))

/-- `set_tt_gasp(data)` — ufo/info.py:282-292 -/
def setGasp {ASM : Type} (st : InfoPart ASM) (data : List GaspRec) : Except PyErr (InfoPart ASM) :=
  data.mapM (fun r => binaryToIntList r.flags >>= fun b => .ok (r.maxPpem, b)) >>= fun l =>
  .ok (st.setAttr (lit "openTypeGaspRangeRecords") (.gasp l))

/-- `set_weight_class(data)` — ufo/info.py:349-350 -/
def weightClass (data : Int) : Int := min (max 1 data) 1000

section
variable (fmt : Int → PyStr)

/-- one item of `set_tt_info(data)` — ufo/info.py:294-347.  `fmt` is `strftime("%Y/%m/%d %H:%M:%S")` for the number of microseconds since
1970; `v & ~(c << 8)` with `c = v >> 8` is the remainder of the division by 256. -/
def ttInfoItem {ASM : Type} (st : InfoPart ASM) (e : Int × TTVal) : Except PyErr (InfoPart ASM) :=
  match e.2 with
  | .int v =>
    match dictGet ttAttributes e.1 with
    | some attr => .ok (st.setAttr attr (.int v))
    | none =>
      if e.1 = 0x56 then
        convertTimestamp v >>= fun d => .ok (st.setAttr (lit "openTypeHeadCreated") (.str (fmt d)))
      else if e.1 = 0x3D then .ok st
      else if e.1 = 0x40 then
        binaryToIntList v >>= fun l => .ok (st.setAttr (lit "openTypeOS2Type") (.ints l))
      else if e.1 = 0x4B then .ok (st.setAttr (lit "openTypeOS2FamilyClass") (.ints [v / 256, v % 256]))
      else if e.1 = 0x3E then .ok st
      else if e.1 = 0x50 then .ok st
      else match dictGet maxpKeys e.1 with
        | some key => .ok (st.setTT key (.int v))
        | none =>
          if e.1 = 0x5C then .ok (if v = 0 then st else st.setAttr (lit "postscriptNominalWidthX") (.int |v|))
          else .ok st
  | .bytes _ => .ok st
  | .flags flags _ => .ok (if e.1 = 0x39 then st.setAttr (lit "openTypeHeadFlags") (.ints flags) else st)
  | .codepages a b =>
    if e.1 = 0x54 then
      binaryToIntList a >>= fun l =>
      binaryToIntList b >>= fun m =>
      .ok (if (l ++ m.map (· + 32)).isEmpty then st else st.setAttr (lit "openTypeOS2CodePageRanges") (.ints (l ++ m.map (· + 32))))
    else .ok st

/-- `set_tt_info(data)` — ufo/info.py:294-347 -/
def setTTInfo {ASM : Type} (st : InfoPart ASM) (data : TTInfo) : Except PyErr (InfoPart ASM) := data.foldlM (ttInfoItem fmt) st

/-- `iter_unpack("<h", data)`: struct.error for an odd number of bytes — ufo/builder.py:444-448 -/
def unpackI16 : Bytes → Except PyErr (List Int)
  | [] => .ok []
  | [_] => .error .structError
  | a :: b :: r => unpackI16 r >>= fun l =>
    .ok ((if 32768 ≤ a.toNat + 256 * b.toNat then ((a.toNat + 256 * b.toNat : Nat) : Int) - 65536
      else ((a.toNat + 256 * b.toNat : Nat) : Int)) :: l)

/-- `{str(i): v for i, v in enumerate(values)}` from the number `i` on — ufo/builder.py:444-448 -/
def numbered : Nat → List Int → List (PyStr × Int)
  | _, [] => []
  | i, v :: l => (natDec i, v) :: numbered (i + 1) l

variable (ops : AngleOps) (asm : AsmOps)

/-- the data of an entry as the value of an attribute; data of other types do not occur for these entries
— ufo/builder.py:444-448 -/
def InfoVal.ofData (d : Decompiled ops.Angle asm.Asm) : Except PyErr InfoVal :=
  match d with
  | .str s => .ok (.str s)
  | .int v => .ok (.int v)
  | .double d => .ok (.double d)
  | .ints l => .ok (.ints l)
  | _ => .error .type

/-- a number of "com.fontlab.v2.tth"; `dflt`: the default value that is left out — ufo/builder.py:354-374 -/
def setTth (st : InfoPart asm.Asm) (key : PyStr) (dflt : Option Int) (v : Int) : InfoPart asm.Asm :=
  if some v = dflt then st else { st with tth := dictSet st.tth key v }

/-- an entry for the font info or the lib — ufo/builder.py:444-448, 522-535, 540-545, 550-551, 554-559, 623-628, 646-651; other entries
change nothing here -/
def infoEntry (st : InfoPart asm.Asm) (id : Int) (d : Decompiled ops.Angle asm.Asm) : Except PyErr (InfoPart asm.Asm) :=
  match dictGet infoMapping id with
  | some attr => InfoVal.ofData ops asm d >>= fun v => .ok (st.setAttr attr v)
  | none =>
    if id = 1024 then
      match d with
      | .str s => .ok ((st.setAttr (lit "familyName") (.str s)).setAttr (lit "openTypeNamePreferredFamilyName") (.str s))
      | _ => .error .type                                                                                   -- pref_family_name
    else if id = 1034 then
      match d with
      | .int v => .ok (st.setAttr (lit "postscriptIsFixedPitch") (.bool (!(v == 0))))                       -- is_fixed_pitch
      | _ => .error .type
    else if id = 1048 then
      match d with
      | .int v => .ok (st.setAttr (lit "openTypeOS2WeightClass") (.int (weightClass v)))                    -- weight_code
      | _ => .error .type
    else if id = 1127 then
      match d with
      | .str s => .ok (st.setAttr (lit "postscriptWeightName") (.str s))                                    -- style_name
      | _ => .error .type
    else if id = 1137 then
      match d with
      | .str s => .ok ((st.setAttr (lit "styleName") (.str s)).setAttr (lit "openTypeNamePreferredSubfamilyName") (.str s))
      | _ => .error .type                                                                                   -- pref_style_name
    else if id = 1138 then
      match d with
      | .names l => .ok (st.setAttr (lit "openTypeNameRecords") (.names l))                                 -- fontnames
      | _ => .error .type
    else if id = 1264 then
      match d with
      | .ttInfo l => setTTInfo fmt st l                                                                     -- ttinfo
      | _ => .error .type
    else if id = 1265 then
      match d with
      | .gasp l => setGasp st l                                                                             -- gasp
      | _ => .error .type
    else if id = 1267 then
      match d with
      | .int v => setSelection st v                                                                         -- font_style
      | _ => .error .type
    else if id = 2021 then
      match d with
      | .ints l => .ok (st.setAttr (lit "openTypeOS2UnicodeRanges") (.ints l))                              -- unicoderanges
      | _ => .error .type
    else if id = 2016 then
      match d with
      | .str s => .ok { st with userData := some s }                                                        -- customdata
      | _ => .error .type
    else if id = 2024 then
      match d with
      | .metricsFlags l => .ok { st with metricsFlags := some l }                                           -- MetricsClassFlags
      | _ => .error .type
    else if id = 1272 then
      match d with
      | .int v => .ok (setTth asm st (lit "stemsnaplimit") (some 68) v)
      | _ => .error .type
    else if id = 1274 then
      match d with
      | .int v => .ok (setTth asm st (lit "zoneppm") (some 48) v)
      | _ => .error .type
    else if id = 1275 then
      match d with
      | .int v => .ok (setTth asm st (lit "codeppm") none v)
      | _ => .error .type
    else if id = 1604 then
      match d with
      | .int v => .ok (setTth asm st (lit "dropoutppm") (some 255) v)
      | _ => .error .type
    else if id = 1261 then
      match d with
      | .str s => deHexStr s >>= fun b => unpackI16 b >>= fun l => .ok (st.setTT (lit "controlValue") (.cvt (numbered 0 l)))
      | _ => .error .type                                                                                   -- cvt
    else if id = 1262 then
      match d with
      | .str s => deHexStr s >>= fun b => asm.disassemble b >>= fun a => .ok (st.setTT (lit "controlValueProgram") (.asm a))
      | _ => .error .type                                                                                   -- prep
    else if id = 1263 then
      match d with
      | .str s => deHexStr s >>= fun b => asm.disassemble b >>= fun a => .ok (st.setTT (lit "fontProgram") (.asm a))
      | _ => .error .type                                                                                   -- fpgm
    else .ok st

/-- an entry of the file: skipped ids, entries without data — ufo/builder.py:432-450 -/
def infoStep (o : BuildOpts) (st : InfoPart asm.Asm) (e : Int × Option (Decompiled ops.Angle asm.Asm)) : Except PyErr (InfoPart asm.Asm) :=
  if e.1 ∈ skipKeys o then .ok st
  else match e.2 with
    | none => .ok st
    | some d => infoEntry fmt ops asm st e.1 d

/-- a value equal to that in `default_tt_lib` — ufo/builder.py:673-677, ufo/info.py:30-38 -/
def LibVal.isDefault {ASM : Type} (key : PyStr) (v : LibVal ASM) : Bool :=
  match v with
  | .str s => decide (key = lit "formatVersion" ∧ s = lit "1")
  | .int v => decide (v = 0 ∧ key ∈ maxpKeys.map Prod.snd)
  | _ => false

/-- `self.info.lib[TT_UFO_LIB_KEY] == default_tt_lib` — ufo/builder.py:673-677, ufo/info.py:30-38: seven items, each with its default -/
def isDefaultTT {ASM : Type} (lib : List (PyStr × LibVal ASM)) : Bool :=
  lib.length == 7 && lib.all fun e => e.2.isDefault e.1

/-- `int(round(0.5 * thickness))` — ufo/info.py:214-228 -/
def halfRounded (t : Int) : Int := roundEven (fl ((1 / 2 : Rat) * fl t))

/-- `fix_underline_position()` — ufo/info.py:214-228; values of other types do not occur -/
def fixUnderline (attrs : Attrs) : Except PyErr Attrs :=
  match dictGet attrs (lit "postscriptUnderlinePosition"), dictGet attrs (lit "postscriptUnderlineThickness") with
  | some (.int p), some (.int t) => .ok (dictSet attrs (lit "postscriptUnderlinePosition") (.int (p + halfRounded t)))
  | _, _ => .error .type

/-- the font info after `build()` — ufo/builder.py:416-679 -/
def buildInfo (o : BuildOpts) (es : List (Int × Option (Decompiled ops.Angle asm.Asm))) : Except PyErr (InfoPart asm.Asm) :=
  es.foldlM (infoStep fmt ops asm o) (noInfo asm.Asm) >>= fun st =>
  fixUnderline st.attrs >>= fun attrs =>
  .ok { st with
    attrs := attrs
    tt := st.tt.bind fun lib => if isDefaultTT lib then none else some lib }

end

/-! ### names for the designspace document -/

/-- the text of an attribute; `None` is `none` — ufo/info.py:108-117 -/
def textAttr (attrs : Attrs) (name : PyStr) : Option PyStr :=
  match dictGet attrs name with
  | some (.str s) => some s
  | _ => none

/-- `ds_family_name` — ufo/info.py:108-117 -/
def dsFamilyName (attrs : Attrs) : Option PyStr :=
  match textAttr attrs (lit "openTypeNamePreferredFamilyName") with
  | some (c :: s) => some (c :: s)
  | _ => match textAttr attrs (lit "familyName") with
    | some (c :: s) => some (c :: s)
    | _ => textAttr attrs (lit "styleMapFamilyName")

end Verif

import Verif.Model.Base
/-! Model of `parsers/truetype.py`, `compilers/truetype.py`. -/
set_option autoImplicit false
namespace Verif

/-- `tt_settings` — __init__.py:174-178 -/
def ttSettings : List (Int × PyStr) :=
  [(0, lit "use_custom_tt_values"), (1, lit "create_vdmx"), (2, lit "add_null_cr_space")]

/-- `ttinfo_names` — __init__.py:127-172 -/
def ttinfoNames : List (Int × PyStr) :=
  [(0x33, lit "max_zones"), (0x34, lit "max_twilight_points"), (0x35, lit "max_storage"),
   (0x36, lit "max_function_defs"), (0x37, lit "max_instruction_defs"), (0x38, lit "max_stack_elements"),
   (0x39, lit "head_flags"), (0x3A, lit "head_units_per_em"), (0x3B, lit "head_mac_style"),
   (0x3C, lit "head_lowest_rec_ppem"), (0x56, lit "head_creation"), (0x57, lit "head_creation2"),
   (0x3D, lit "head_font_direction_hint"), (0x3E, lit "os2_us_weight_class"), (0x3F, lit "os2_us_width_class"),
   (0x40, lit "os2_fs_type"), (0x41, lit "os2_y_subscript_x_size"), (0x42, lit "os2_y_subscript_y_size"),
   (0x43, lit "os2_y_subscript_x_offset"), (0x44, lit "os2_y_subscript_y_offset"),
   (0x45, lit "os2_y_superscript_x_size"), (0x46, lit "os2_y_superscript_y_size"),
   (0x47, lit "os2_y_superscript_x_offset"), (0x48, lit "os2_y_superscript_y_offset"),
   (0x49, lit "os2_y_strikeout_size"), (0x4A, lit "os2_y_strikeout_position"), (0x4B, lit "os2_s_family_class"),
   (0x4C, lit "OpenTypeOS2Panose"), (0x4D, lit "os2_s_typo_ascender"), (0x4E, lit "os2_s_typo_descender"),
   (0x4F, lit "os2_s_typo_line_gap"), (0x50, lit "os2_fs_selection"), (0x51, lit "os2_us_win_ascent"),
   (0x52, lit "os2_us_win_descent"), (0x5C, lit "Average Width"), (0x53, lit "Hdmx PPMs 1"),
   (0x58, lit "Hdmx PPMs 2"), (0x54, lit "Codepages"), (0x59, lit "hhea_line_gap"), (0x5A, lit "hhea_ascender"),
   (0x5B, lit "hhea_descender")]

/-! ### Gasp, VDMX -/

/-- GaspDict — parsers/truetype.py:37-47 -/
structure GaspRec where
  maxPpem : Int
  flags : Int
  deriving DecidableEq, Repr

/-- `unpack(f"<{n}H", data)` for data of `2 * n` bytes — parsers/truetype.py:37-47 -/
def unpackU16 : Bytes → List Int
  | a :: b :: r => ((a.toNat + 256 * b.toNat : Nat) : Int) :: unpackU16 r
  | _ => []

/-- `zip(it, it)` on the same iterator: consecutive pairs; an odd last element is dropped
— parsers/truetype.py:37-47 -/
def pairUp : List Int → List GaspRec
  | a :: b :: r => ⟨a, b⟩ :: pairUp r
  | _ => []

/-- `GaspParser._parse` — parsers/truetype.py:37-47: `unpack` needs exactly `2 * (len // 2)` bytes -/
def parseGasp : R (List GaspRec) := do
  let data ← R.readAll
  if data.length % 2 = 0 then pure (pairUp (unpackU16 data)) else R.throw .structError

/-- `GaspCompiler._compile` — compilers/truetype.py:34-38 -/
def compileGasp (l : List GaspRec) : W := W.all l fun r => writeU16 r.maxPpem ++ writeU16 r.flags

/-- VdmxRecDict — typing.py:405-408 -/
structure VdmxRec where
  pelHeight : Int
  max : Int
  min : Int
  deriving DecidableEq, Repr

/-- one record — parsers/truetype.py:282-287 -/
def readVdmxRec : R VdmxRec := do
  let a ← readValue
  let b ← readValue
  let c ← readValue
  pure ⟨a, b, c⟩
/-- `VdmxParser._parse` — parsers/truetype.py:278-290 -/
def parseVdmx : R (List VdmxRec) := do
  let num ← readValue
  R.forRange num readVdmxRec
/-- compilers/truetype.py:202-204 -/
def writeVdmxRec (r : VdmxRec) : W := writeValue r.pelHeight ++ (writeValue r.max ++ writeValue r.min)
/-- `VdmxCompiler._compile` — compilers/truetype.py:198-204 -/
def compileVdmx (l : List VdmxRec) : W := writeValue l.length ++ W.all l writeVdmxRec

/-! ### TrueType info -/

/-- a value of the TrueType info dict: a number, the head flags with options, a list of bytes (Panose,
Hdmx PPMs), the code page ranges — parsers/truetype.py:63-155 -/
inductive TTVal where
  | int (v : Int)
  | flags (flags : List Int) (options : List PyStr)
  | bytes (l : List Int)
  | codepages (range1 range2 : Int)
  deriving DecidableEq, Repr

/-- The TrueType info dict.  Python's keys are the names in `ttinfo_names`; the model uses the numbers
(`C36_keys` shows that all keys that are read or written have names, and different ones).
— parsers/truetype.py:63-155 -/
abbrev TTInfo := List (Int × TTVal)

/-- `convert_int_to_flags_options` — parsers/truetype.py:23-29 -/
def flagsOfInt (value : Int) : Except PyErr TTVal :=
  match binaryToIntList (value % 65536) with
  | .error e => .error e
  | .ok flags =>
    match binaryToIntList (value / 65536) with
    | .error e => .error e
    | .ok options => .ok (.flags flags (options.map fun i => (dictGet ttSettings i).getD (intDec i)))

/-- `convert_flags_options_to_int` — compilers/truetype.py:17-31, for a dict with both keys -/
def intOfFlags (flags : List Int) (options : List PyStr) : Except PyErr Int :=
  match intListToBinary flags with
  | .error e => .error e
  | .ok value =>
    match intListToBinary ((ttSettings.filter fun p => p.2 ∈ options).map Prod.fst) with
    | .error e => .error e
    | .ok bits => .ok (value + bits * 65536)

/-- the keys of plain numbers — parsers/truetype.py:74-118, 82, 88-101, 112, 135, 145 -/
def ttIntKeys : List Int :=
  [0x33, 0x34, 0x35, 0x36, 0x37, 0x38, 0x3A, 0x3B, 0x3C, 0x3D, 0x3E, 0x3F, 0x40, 0x41, 0x42, 0x43, 0x44, 0x45,
   0x46, 0x47, 0x48, 0x49, 0x4A, 0x4B, 0x4D, 0x4E, 0x4F, 0x50, 0x51, 0x52, 0x56, 0x57, 0x5C]

/-- the value that belongs to a key, `none` if the key is unknown — parsers/truetype.py:63-155 -/
def readTTVal (k : Int) : Option (R TTVal) :=
  if k ∈ ttIntKeys then some (do
    let v ← readValue
    pure (.int v))
  else if k = 0x39 then some (do
    let v ← readValue
    R.lift (flagsOfInt v))
  else if k = 0x4C then some (do
    let l ← R.rep 10 readU8
    pure (.bytes l))
  else if k = 0x53 ∨ k = 0x58 then some (do
    let n ← readValue
    let l ← R.forRange n readU8
    pure (.bytes l))
  else if k = 0x54 then some (do
    let a ← readValue false
    let b ← readValue false
    pure (.codepages a b))
  else none

/-- one iteration of `TrueTypeInfoParser._parse` — parsers/truetype.py:63-155.  `assert_unique` comes before
the value is read; an unknown key only gives a warning. -/
def ttInfoBody (d : TTInfo) : R (TTInfo ⊕ TTInfo) := do
  let k ← readU8
  if k = 0x32 then pure (.inr d)
  else
    match readTTVal k with
    | none => pure (.inl d)
    | some p =>
      if (dictGet d k).isSome = true then R.throw .key
      else do
        let v ← p
        pure (.inl (dictSet d k v))

/-- `TrueTypeInfoParser._parse` — parsers/truetype.py:60-155 -/
def parseTTInfo : R TTInfo := R.whileTrue ttInfoBody []

/-- `write_uint8(k)`, `write_value(v)`; a value of another type is a TypeError
— compilers/truetype.py:51-53 -/
def writeTTInt (k : Int) : TTVal → W
  | .int v => writeU8 k ++ writeValue v
  | _ => .error .type

/-- mandatory numbers — compilers/truetype.py:51-53 -/
def ttMandatory (d : TTInfo) (k : Int) : W :=
  match dictGet d k with
  | none => .error .key
  | some v => writeTTInt k v

/-- `_write_if_exists` — compilers/truetype.py:42-48 -/
def ttOptional (d : TTInfo) (k : Int) : W :=
  match dictGet d k with
  | none => W.nil
  | some v => writeTTInt k v

/-- the head flags — compilers/truetype.py:55-58; anything but a dict is an AssertionError -/
def ttFlags (d : TTInfo) : W :=
  match dictGet d 0x39 with
  | none => .error .key
  | some (.flags f o) => W.withVal (intOfFlags f o) fun v => writeU8 0x39 ++ writeValue v
  | some _ => .error .assertion

/-- Panose — compilers/truetype.py:90-94 -/
def ttPanose (d : TTInfo) : W :=
  match dictGet d 0x4C with
  | none => .error .key
  | some (.bytes l) => if l.length = 10 then writeU8 0x4C ++ W.all l writeU8 else .error .assertion
  | some _ => .error .type

/-- Hdmx PPMs — compilers/truetype.py:100-107 -/
def ttHdmx (d : TTInfo) (k : Int) : W :=
  match dictGet d k with
  | none => W.nil
  | some (.bytes l) => writeU8 k ++ (writeValue l.length ++ W.all l writeU8)
  | some _ => .error .type

/-- code pages — compilers/truetype.py:110-114 -/
def ttCodepages (d : TTInfo) : W :=
  match dictGet d 0x54 with
  | none => .error .key
  | some (.codepages a b) => writeU8 0x54 ++ (writeValue a false ++ writeValue b false)
  | some _ => .error .type

/-- `TrueTypeInfoCompiler._compile` — compilers/truetype.py:50-116 -/
def compileTTInfo (d : TTInfo) : W :=
  W.all [0x33, 0x34, 0x35, 0x36, 0x37, 0x38] (ttMandatory d) ++ ttFlags d ++
  W.all [0x3A, 0x3B, 0x3C] (ttOptional d) ++ W.all [0x56, 0x57] (ttOptional d) ++
  W.all [0x3D, 0x3E, 0x3F, 0x40, 0x41, 0x42, 0x43, 0x44, 0x45, 0x46, 0x47, 0x48, 0x49, 0x4A, 0x4B] (ttOptional d) ++
  ttPanose d ++ W.all [0x4D, 0x4E, 0x4F, 0x50, 0x51, 0x52, 0x5C] (ttOptional d) ++
  W.all [0x53, 0x58] (ttHdmx d) ++ ttCodepages d ++ writeU8 0x32

/-! ### stems -/

/-- TTStemDict of the stems entry: `value`, `name` and `round` (a dict by ppm)
— typing.py:361-365 -/
structure TTStem where
  value : Int
  name : PyStr
  round : List (Int × Int)
  deriving DecidableEq, Repr

/-- TTStemDict of the ppems entries: the index of the stem and `round` — typing.py:361-365 -/
structure TTPpem where
  stem : Int
  round : List (Int × Int)
  deriving DecidableEq, Repr

/-- TTStemsDict, with both keys — typing.py:368-370 -/
structure TTStems (α : Type) where
  ttStemsV : List α
  ttStemsH : List α
  deriving DecidableEq, Repr

/-- one stem — parsers/truetype.py:165-173: `stream.read(n).decode(encoding)` -/
def readTTStem : R TTStem := do
  let width ← readValue
  let len ← readU8
  let raw ← R.readN len
  let name ← R.lift (decode1252 raw)
  let ppm6 ← readValue
  pure ⟨width, name, [(6, ppm6)]⟩

/-- one direction: the number of stems, then the stems — parsers/truetype.py:158-177 -/
def readCounted {α : Type} (p : R α) : R (List α) := do
  let num ← readValue
  R.forRange num p

/-- `TrueTypeStemsParser._parse` — parsers/truetype.py:158-177 -/
def parseTTStems : R (TTStems TTStem) := do
  let v ← readCounted readTTStem
  let h ← readCounted readTTStem
  pure ⟨v, h⟩

/-- `stem["round"][k]` for the given ppms, written one after the other
— compilers/truetype.py:153-157 -/
def writeRounds (ks : List Int) (round : List (Int × Int)) : W :=
  W.all ks fun k =>
    match dictGet round k with
    | none => .error .key
    | some v => writeValue v

/-- one stem — compilers/truetype.py:153-157 -/
def writeTTStem (s : TTStem) : W :=
  writeValue s.value ++ (W.withVal (encode1252 s.name) fun b => writeU8 b.length ++ writeBytes b) ++ writeRounds [6] s.round

/-- `TrueTypeStemsCompiler._compile` — compilers/truetype.py:147-157 -/
def compileTTStems (d : TTStems TTStem) : W :=
  writeValue d.ttStemsV.length ++ W.all d.ttStemsV writeTTStem ++
  (writeValue d.ttStemsH.length ++ W.all d.ttStemsH writeTTStem)

/-- the rounds of one stem: a value for each of the given ppms — parsers/truetype.py:187-193 -/
def readRounds (ks : List Int) : R (List (Int × Int)) := R.forEach ks fun k => do
  let v ← readValue
  pure (k, v)

/-- the stems of one direction, numbered — parsers/truetype.py:187-193, 211-213, 231-234 -/
def readPpems (ks : List Int) (num : Int) : R (List TTPpem) :=
  R.forEach (List.range num.toNat) fun j => do
    let r ← readRounds ks
    pure ⟨j, r⟩

/-- `TrueTypeStemPpemsParser._parse` — parsers/truetype.py:180-197 -/
def parseTTPpems : R (TTStems TTPpem) := do
  let nv ← readValue
  let v ← readPpems [2, 3, 4, 5] nv
  let nh ← readValue
  let h ← readPpems [2, 3, 4, 5] nh
  pure ⟨v, h⟩

/-- `TrueTypeStemPpems23Parser._parse` — parsers/truetype.py:221-239 -/
def parseTTPpems23 : R (TTStems TTPpem) := do
  let nv ← readValue
  let v ← readPpems [2, 3] nv
  let nh ← readValue
  let h ← readPpems [2, 3] nh
  pure ⟨v, h⟩

/-- `TrueTypeStemPpems1Parser._parse` — parsers/truetype.py:200-218; the numbers of stems are attributes
of the `Vfb` -/
def parseTTPpems1 (nv nh : Int) : R (TTStems TTPpem) := do
  let v ← readPpems [1] nv
  let h ← readPpems [1] nh
  pure ⟨v, h⟩

/-- `TrueTypeStemPpems1Compiler._compile` — compilers/truetype.py:119-124 -/
def compileTTPpems1 (d : TTStems TTPpem) : W :=
  W.all d.ttStemsV (fun s => writeRounds [1] s.round) ++ W.all d.ttStemsH (fun s => writeRounds [1] s.round)
/-- `TrueTypeStemPpems23Compiler._compile` — compilers/truetype.py:127-134 -/
def compileTTPpems23 (d : TTStems TTPpem) : W :=
  writeValue d.ttStemsV.length ++ W.all d.ttStemsV (fun s => writeRounds [2, 3] s.round) ++
  (writeValue d.ttStemsH.length ++ W.all d.ttStemsH (fun s => writeRounds [2, 3] s.round))
/-- `TrueTypeStemPpemsCompiler._compile` — compilers/truetype.py:137-144 -/
def compileTTPpems (d : TTStems TTPpem) : W :=
  writeValue d.ttStemsV.length ++ W.all d.ttStemsV (fun s => writeRounds [2, 3, 4, 5] s.round) ++
  (writeValue d.ttStemsH.length ++ W.all d.ttStemsH (fun s => writeRounds [2, 3, 4, 5] s.round))

/-! ### zones -/

/-- TTZoneDict — typing.py:373-378 -/
structure TTZone where
  position : Int
  value : Int
  name : PyStr
  deriving DecidableEq, Repr

/-- TTZonesDict; either side may be missing when compiling — typing.py:381-383 -/
structure TTZones where
  ttZonesT : Option (List TTZone)
  ttZonesB : Option (List TTZone)
  deriving DecidableEq, Repr

/-- one zone — parsers/truetype.py:268-271 -/
def readTTZone : R TTZone := do
  let position ← readValue
  let width ← readValue
  let name ← readStrWithLen
  pure ⟨position, width, name⟩

/-- `TrueTypeZonesParser._parse` — parsers/truetype.py:259-275 -/
def parseTTZones : R TTZones := do
  let t ← readCounted readTTZone
  let b ← readCounted readTTZone
  pure ⟨some t, some b⟩

/-- one zone — compilers/truetype.py:173-177 -/
def writeTTZone (z : TTZone) : W := writeValue z.position ++ (writeValue z.value ++ writeStrWithLen (some z.name))

/-- one side — compilers/truetype.py:166-177 -/
def writeTTSide : Option (List TTZone) → W
  | none => writeValue 0
  | some l => writeValue l.length ++ W.all l writeTTZone

/-- `TrueTypeZonesCompiler._compile` — compilers/truetype.py:160-177 -/
def compileTTZones (d : TTZones) : W := writeTTSide d.ttZonesT ++ writeTTSide d.ttZonesB

/-- zone deltas: zone index → ppm → shift — parsers/truetype.py:251-254 -/
abbrev TTDeltas := List (Int × List (Int × Int))

/-- adding one delta — parsers/truetype.py:251-254 -/
def addDelta (d : TTDeltas) (t : Int × Int × Int) : TTDeltas :=
  match dictGet d t.1 with
  | some spec => dictSet d t.1 (dictSet spec t.2.1 t.2.2)
  | none => dictSet d t.1 [(t.2.1, t.2.2)]

/-- one delta — parsers/truetype.py:248-250 -/
def readDelta : R (Int × Int × Int) := do
  let index ← readValue
  let ppm ← readValue
  let shift ← readValue
  pure (index, ppm, shift)

/-- `TrueTypeZoneDeltasParser._parse` — parsers/truetype.py:242-256 -/
def parseTTDeltas : R TTDeltas := do
  let num ← readValue
  let items ← R.forRange num readDelta
  pure (items.foldl addDelta [])

/-- the list of deltas — compilers/truetype.py:186-189 -/
def deltaList (d : TTDeltas) : List (Int × Int × Int) := d.flatMap fun p => p.2.map fun q => (p.1, q.1, q.2)

/-- the order of tuples — compilers/truetype.py:180-195 -/
def tripleLe (a b : Int × Int × Int) : Bool :=
  a.1 < b.1 || (a.1 = b.1 && (a.2.1 < b.2.1 || (a.2.1 = b.2.1 && a.2.2 ≤ b.2.2)))

/-- compilers/truetype.py:193-195 -/
def writeDelta (t : Int × Int × Int) : W := writeValue t.1 ++ (writeValue t.2.1 ++ writeValue t.2.2)

/-- `TrueTypeZoneDeltasCompiler._compile` — compilers/truetype.py:180-195 (`list.sort`) -/
def compileTTDeltas (d : TTDeltas) : W :=
  let deltas := (deltaList d).mergeSort tripleLe
  writeValue deltas.length ++ W.all deltas writeDelta

end Verif

import Verif.Model.Base
/-! Model of `parsers/ps.py`, `compilers/ps.py`, `parsers/pclt.py`, `compilers/pclt.py`. -/
set_option autoImplicit false
namespace Verif

/-- `BBoxDict` — typing.py:34-38 -/
structure BBox where
  xMin : Int
  yMin : Int
  xMax : Int
  yMax : Int
  deriving DecidableEq, Repr

/-- `PSInfoDict` — typing.py:283-304 -/
structure PSInfo where
  font_matrix : List Dbl
  force_bold : Int
  blue_values : List Int
  other_blues : List Int
  family_blues : List Int
  family_other_blues : List Int
  blue_scale : Dbl
  blue_shift : Int
  blue_fuzz : Int
  std_hw : Int
  std_vw : Int
  stem_snap_h : List Int
  stem_snap_v : List Int
  bounding_box : BBox
  adv_width_min : Int
  adv_width_max : Int
  adv_width_avg : Int
  ascender : Int
  descender : Int
  x_height : Int
  cap_height : Int
  deriving DecidableEq, Repr

/-- `PostScriptInfoParser._parse` — parsers/ps.py:21-47 -/
def parsePSInfo : R PSInfo := do
  let font_matrix ← readDoubles 6
  let force_bold ← readI32
  let blue_values ← R.rep 14 readI32
  let other_blues ← R.rep 10 readI32
  let family_blues ← R.rep 14 readI32
  let family_other_blues ← R.rep 10 readI32
  let blue_scale ← readDouble
  let blue_shift ← readU32
  let blue_fuzz ← readU32
  let std_hw ← readU32
  let std_vw ← readU32
  let stem_snap_h ← R.rep 12 readU32
  let stem_snap_v ← R.rep 12 readU32
  let xMin ← readI16
  let yMin ← readI16
  let xMax ← readI16
  let yMax ← readI16
  let adv_width_min ← readI32
  let adv_width_max ← readI32
  let adv_width_avg ← readI32
  let ascender ← readI32
  let descender ← readI32
  let x_height ← readI32
  let cap_height ← readI32
  pure ⟨font_matrix, force_bold, blue_values, other_blues, family_blues, family_other_blues, blue_scale,
    blue_shift, blue_fuzz, std_hw, std_vw, stem_snap_h, stem_snap_v, ⟨xMin, yMin, xMax, yMax⟩,
    adv_width_min, adv_width_max, adv_width_avg, ascender, descender, x_height, cap_height⟩

/-- `assert len(values) == size`, then write all of them — compilers/ps.py:10-13, 21-27, 40-46 -/
def writeSized {α : Type} (size : Nat) (l : List α) (f : α → W) : W :=
  if l.length = size then W.all l f else .error .assertion

/-- `PostScriptInfoCompiler._compile` — compilers/ps.py:8-57 -/
def compilePSInfo (d : PSInfo) : W :=
  writeSized 6 d.font_matrix writeDouble ++ writeI32 d.force_bold ++
  writeSized 14 d.blue_values writeI32 ++ writeSized 10 d.other_blues writeI32 ++
  writeSized 14 d.family_blues writeI32 ++ writeSized 10 d.family_other_blues writeI32 ++
  writeDouble d.blue_scale ++
  writeU32 d.blue_shift ++ writeU32 d.blue_fuzz ++ writeU32 d.std_hw ++ writeU32 d.std_vw ++
  writeSized 12 d.stem_snap_h writeU32 ++ writeSized 12 d.stem_snap_v writeU32 ++
  writeI16 d.bounding_box.xMin ++ writeI16 d.bounding_box.yMin ++
  writeI16 d.bounding_box.xMax ++ writeI16 d.bounding_box.yMax ++
  writeI32 d.adv_width_min ++ writeI32 d.adv_width_max ++ writeI32 d.adv_width_avg ++
  writeI32 d.ascender ++ writeI32 d.descender ++ writeI32 d.x_height ++ writeI32 d.cap_height

/-! ### hinting options -/

/-- A dict of option flags plus the list under the key `"other"` (`[]` when absent)
— parsers/ps.py:58-62 -/
structure BitOptions where
  flags : List (PyStr × Int)
  other : List Int
  deriving DecidableEq, Repr

/-- `global_options` — parsers/ps.py:5-7 -/
def psGlobalOptions : List (PyStr × Int) := [(lit "generate_flex", 0)]
/-- `glyph_options` — parsers/ps.py:9-13 -/
def psGlyphOptions : List (PyStr × Int) :=
  [(lit "hint_replacement", 29), (lit "horizontal_3_stem", 30), (lit "vertical_3_stem", 31)]

/-- the loop over the option names — parsers/ps.py:58-62, 76-81: a known bit is taken out of the
set and recorded as `d[k] = 1`, the remaining bits are `d["other"]` in increasing order (the
set is represented by its sorted list of elements) -/
def takeOptions (opts : List (PyStr × Int)) (bits : List Int) : BitOptions :=
  let st := opts.foldl (fun (st : List Int × List (PyStr × Int)) o =>
    if o.2 ∈ st.1 then (st.1.filter (· ≠ o.2), dictSet st.2 o.1 1) else st) (bits, [])
  ⟨st.2, st.1⟩

/-- sum of the bits — compilers/ps.py:62-67, 73-78: truthy known flags, then the others.  A negative
bit makes the sum a float, on which `to_bytes` raises AttributeError. -/
def sumOptions (opts : List (PyStr × Int)) (d : BitOptions) : Except PyErr Int :=
  match intListToBinary ((opts.filter fun o => (dictGet d.flags o.1).getD 0 ≠ 0).map Prod.snd ++ d.other) with
  | .ok v => .ok v
  | .error _ => .error .attr

/-- `PostScriptGlobalHintingOptionsParser._parse` — parsers/ps.py:56-65 -/
def parsePSGlobalOptions : R BitOptions := do
  let v ← readU16
  let bits ← R.lift (binaryToIntList v)
  pure (takeOptions psGlobalOptions bits)
/-- `PostScriptGlobalHintingOptionsCompiler._compile` — compilers/ps.py:60-68 -/
def compilePSGlobalOptions (d : BitOptions) : W := W.withVal (sumOptions psGlobalOptions d) writeU16

/-- `PostScriptGlyphHintingOptionsParser._parse` — parsers/ps.py:74-83 -/
def parsePSGlyphOptions : R BitOptions := do
  let v ← readU32
  let bits ← R.lift (binaryToIntList v)
  pure (takeOptions psGlyphOptions bits)
/-- `PostScriptGlyphHintingOptionsCompiler._compile` — compilers/ps.py:71-79 -/
def compilePSGlyphOptions (d : BitOptions) : W := W.withVal (sumOptions psGlyphOptions d) writeU32

/-! ### PCLT -/

/-- `PCLTDict` — typing.py:262-275 -/
structure Pclt where
  font_number : Int
  pitch : Int
  x_height : Int
  style : Int
  type_family : Int
  cap_height : Int
  symbol_set : Int
  typeface : PyStr
  character_complement : List Int
  file_name : PyStr
  stroke_weight : Int
  width_type : Int
  serif_style : Int
  deriving DecidableEq, Repr

/-- `PcltParser._parse` — parsers/pclt.py:10-52 -/
def parsePclt : R Pclt := do
  let font_number ← readValue false
  let pitch ← readValue
  let x_height ← readValue
  let style ← readValue
  let type_family ← readValue
  let cap_height ← readValue
  let symbol_set ← readValue
  let typeface ← readStr 16
  let character_complement ← R.rep 8 readU8
  let file_name ← readStr 6
  let stroke_weight ← readI8
  let width_type ← readI8
  let serif_style ← readU8
  pure ⟨font_number, pitch, x_height, style, type_family, cap_height, symbol_set, typeface,
    character_complement, file_name, stroke_weight, width_type, serif_style⟩

/-- `PcltCompiler._compile` — compilers/pclt.py:9-27 -/
def compilePclt (d : Pclt) : W :=
  writeValue d.font_number false ++
  writeValue d.pitch ++ writeValue d.x_height ++ writeValue d.style ++ writeValue d.type_family ++
  writeValue d.cap_height ++ writeValue d.symbol_set ++
  writeStr (some d.typeface) 16 ++ W.all d.character_complement writeU8 ++
  writeStr (some d.file_name) 6 ++
  writeU8 d.stroke_weight ++ writeU8 d.width_type ++ writeU8 d.serif_style

end Verif

import Verif.Model.Base
import Verif.Model.Float
/-! Model of `parsers/options.py`, `compilers/options.py`. -/
set_option autoImplicit false
namespace Verif

/-- `export_options` — __init__.py:10-14 -/
def exportOptionNames : List (Int × PyStr) :=
  [(0, lit "use_custom_opentype_export_options"), (1, lit "use_default_opentype_export_options"),
   (2, lit "use_custom_cmap_encoding")]

/-- `font_options` — __init__.py:38-104 -/
def fontOptionNames : List (Int × PyStr) :=
  [(1, lit "fit_ascender"), (2, lit "fit_descender"), (3, lit "auto_metrics_left"),
   (4, lit "auto_metrics_right"), (5, lit "auto_metrics_close"), (6, lit "auto_hinting_min_h_len"),
   (7, lit "auto_hinting_min_v_len"), (8, lit "auto_hinting_min_h_width"),
   (9, lit "auto_hinting_min_v_width"), (10, lit "auto_hinting_max_h_width"),
   (11, lit "auto_hinting_max_v_width"), (12, lit "auto_hinting_h_ratio"), (13, lit "auto_hinting_v_ratio"),
   (14, lit "duplicate_place_x"), (15, lit "paste_place_x"), (16, lit "opentype_name_records"),
   (17, lit "codepage_for_cmap_1_0"), (18, lit "dont_ignore_unicode_indexes"), (19, lit "head_bbox_savings"),
   (20, lit "autohinting_options"), (21, lit "export_hinted_truetype_font"),
   (22, lit "autohint_unhinted_glyphs"), (23, lit "keep_existing_truetype_instructions"),
   (24, lit "export_visual_truetype_hints"), (25, lit "apply_bbox_savings"), (26, lit "auto_win_asc_desc"),
   (27, lit "add_characters"), (28, lit "export_embedded_bitmaps"),
   (29, lit "copy_hdmx_data_from_base_to_composite_glyph"), (30, lit "dont_automatically_reorder_glyphs"),
   (31, lit "export_ot"), (32, lit "export_volt"), (33, lit "write_kern_feature"), (34, lit "t1_terminal"),
   (35, lit "t1_pfm"), (36, lit "t1_afm"), (37, lit "t1_autohint"), (38, lit "t1_unicode"),
   (39, lit "optimize_align"), (40, lit "optimize_reduce"), (41, lit "t1_encoding"),
   (42, lit "ot_write_gdef"), (43, lit "t1_use_os2"), (44, lit "subrize"), (45, lit "t1_sort"),
   (46, lit "export_kern_table"), (47, lit "t1_fs_type"), (48, lit "expand_kern_flags"),
   (49, lit "expand_kern_codepage"), (50, lit "expand_kern_count"), (51, lit "decompose"),
   (114, lit "duplicate_place_y"), (115, lit "paste_place_y")]

/-- `{v: k for k, v in d.items()}.get(name)`: the key of a name (the names of each table are distinct)
— compilers/options.py:13-14 -/
def revGet (d : List (Int × PyStr)) (name : PyStr) : Option Int :=
  dictGet (d.map fun p => (p.2, p.1)) name

/-! ### export options -/

/-- an element of the option list: a name, or the number of an unknown bit
— parsers/options.py:12-16 -/
inductive ExportOption where
  | name (s : PyStr)
  | bit (b : Int)
  deriving DecidableEq, Repr

/-- `export_options.get(i, i)` — parsers/options.py:12-16 -/
def exportOptionOf (i : Int) : ExportOption :=
  match dictGet exportOptionNames i with
  | some s => .name s
  | none => .bit i

/-- `ExportOptionsParser._parse` — parsers/options.py:12-16 -/
def parseExportOptions : R (List ExportOption) := do
  let val ← readU16
  let bits ← R.lift (binaryToIntList val)
  pure (bits.map exportOptionOf)

/-- `[rev[k] for k in data]` — compilers/options.py:13-14 -/
def exportOptionBits : List ExportOption → Except PyErr (List Int)
  | [] => .ok []
  | .bit _ :: _ => .error .key
  | .name s :: l =>
    match revGet exportOptionNames s with
    | none => .error .key
    | some b =>
      match exportOptionBits l with
      | .ok bs => .ok (b :: bs)
      | .error e => .error e

/-- `ExportOptionsCompiler._compile` — compilers/options.py:11-15 -/
def compileExportOptions (l : List ExportOption) : W :=
  W.withVal (exportOptionBits l) fun bits => W.withVal (intListToBinary bits) writeU16

/-! ### font options -/

/-- `TTAutoHintOptionsDict`; keys that are absent in Python stand for the defaults 7 (precision) and 0
— typing.py:100-107 -/
structure AutoHint where
  single_link_attachment_precision : Int
  generate_triple_hints : Int
  generate_delta_instructions : Int
  direct_links_to_center : Int
  interpolate_cusp_points : Int
  interpolate_double_links : Int
  add_link_to_rsb : Int
  deriving DecidableEq, Repr

/-- `ExpandKernFlagsDict`; keys that are absent in Python stand for 0 — typing.py:69-76 -/
structure KernFlags where
  limit_action : Int
  limit_codepage : Int
  limit_cmap_10 : Int
  limit_font_window : Int
  limit_count : Int
  limit_keep : Int
  apply_to_assistance : Int
  deriving DecidableEq, Repr

/-- a value of the options dict — parsers/options.py:29-81 -/
inductive FontOpt where
  | int (v : Int)
  | ratio (q : Rat)
  | autohint (d : AutoHint)
  | kern (d : KernFlags)
  deriving DecidableEq, Repr

/-- `int(bool(val & mask))` for `mask = 2^i` (Python's `&` on a negative number is two's complement)
— parsers/options.py:34-64 -/
def bitOf (val : Int) (i : Nat) : Int := val / ((2 ^ i : Nat) : Int) % 2

/-- parsers/options.py:34-64; the masks are TTAutoHintOptions, __init__.py -/
def autoHintOf (val : Int) : AutoHint :=
  ⟨val % 8, bitOf val 8, bitOf val 9, bitOf val 10, bitOf val 11, bitOf val 12, bitOf val 13⟩
/-- compilers/options.py:29-40 -/
def autoHintPacked (d : AutoHint) : Int :=
  d.single_link_attachment_precision + d.generate_triple_hints * 0x100 + d.generate_delta_instructions * 0x200 +
  d.direct_links_to_center * 0x400 + d.interpolate_cusp_points * 0x800 + d.interpolate_double_links * 0x1000 +
  d.add_link_to_rsb * 0x2000

/-- parsers/options.py:66-81; the masks are ExpandKernOptions, __init__.py -/
def kernFlagsOf (val : Int) : KernFlags :=
  ⟨bitOf val 0, bitOf val 1, bitOf val 2, bitOf val 3, bitOf val 4, bitOf val 5, bitOf val 12⟩
/-- compilers/options.py:42-54 -/
def kernFlagsPacked (d : KernFlags) : Int :=
  d.limit_action * 0x1 + d.limit_codepage * 0x2 + d.limit_cmap_10 * 0x4 + d.limit_font_window * 0x8 +
  d.limit_count * 0x10 + d.limit_keep * 0x20 + d.apply_to_assistance * 0x1000

/-- one iteration of `EncodedKeyValuesParser._parse` — parsers/base.py:253-259; each element of the
list is a dict with one item -/
def keyValuesBody (endKey : Int) (acc : List (Int × Int)) : R (List (Int × Int) ⊕ List (Int × Int)) := do
  let key ← readU8
  if key = endKey then pure (.inr acc)
  else do
    let val ← readValue
    pure (.inl (acc ++ [(key, val)]))

/-- `EncodedKeyValuesParser._parse` — parsers/base.py:241-259 (`__end__ = 0x64`) -/
def parseKeyValues : R (List (Int × Int)) := R.whileTrue (keyValuesBody 0x64) []

/-- post-processing of one item — parsers/options.py:29-81 -/
def fontOptOf (key : PyStr) (v : Int) : FontOpt :=
  if key = lit "auto_hinting_h_ratio" ∨ key = lit "auto_hinting_v_ratio" then .ratio (fdiv v 10000)
  else if key = lit "autohinting_options" then .autohint (autoHintOf v)
  else if key = lit "expand_kern_flags" then .kern (kernFlagsOf v)
  else .int v

/-- `font_options.get(k, str(k))` — parsers/options.py:19-83 -/
def fontOptName (k : Int) : PyStr := (dictGet fontOptionNames k).getD (intDec k)

/-- `FontOptionsParser._parse` — parsers/options.py:19-83 -/
def parseFontOptions : R (List (PyStr × FontOpt)) := do
  let items ← parseKeyValues
  let raw := items.foldl (fun d p => dictSet d (fontOptName p.1) p.2) []
  pure (raw.map fun p => (p.1, fontOptOf p.1 p.2))

/-- the integer to be stored for an item — compilers/options.py:24-56, including the type assertions
(a value of the wrong type is an AssertionError) -/
def fontOptRaw (key : PyStr) (v : FontOpt) : Except PyErr Int :=
  if key = lit "auto_hinting_h_ratio" ∨ key = lit "auto_hinting_v_ratio" then
    match v with
    | .ratio q => .ok (roundEven (fmul q 10000))
    | _ => .error .assertion
  else if key = lit "autohinting_options" then
    match v with
    | .autohint d => .ok (autoHintPacked d)
    | _ => .error .assertion
  else if key = lit "expand_kern_flags" then
    match v with
    | .kern d => .ok (kernFlagsPacked d)
    | _ => .error .assertion
  else
    match v with
    | .int v => .ok v
    | _ => .error .assertion

/-- one item — compilers/options.py:22-59 -/
def compileFontOpt (p : PyStr × FontOpt) : W :=
  match revGet fontOptionNames p.1 with
  | none => .error .assertion
  | some rawKey => writeU8 rawKey ++ W.withVal (fontOptRaw p.1 p.2) fun v => writeValue v

/-- `FontOptionsCompiler._compile` — compilers/options.py:18-60 -/
def compileFontOptions (d : List (PyStr × FontOpt)) : W :=
  W.all d compileFontOpt ++ writeU8 0x64

end Verif

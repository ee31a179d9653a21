import Verif.Model.Ps
import Verif.Spec.Entry
/-! Specification vocabulary for C32/C33. -/
set_option autoImplicit false
namespace Verif.Spec
open Verif

/-- PostScript info that the format can carry -/
structure PSInfoOk (d : PSInfo) : Prop where
  font_matrix : d.font_matrix.length = 6
  force_bold : IsInt32 d.force_bold
  blue_values : d.blue_values.length = 14 ∧ ∀ v ∈ d.blue_values, IsInt32 v
  other_blues : d.other_blues.length = 10 ∧ ∀ v ∈ d.other_blues, IsInt32 v
  family_blues : d.family_blues.length = 14 ∧ ∀ v ∈ d.family_blues, IsInt32 v
  family_other_blues : d.family_other_blues.length = 10 ∧ ∀ v ∈ d.family_other_blues, IsInt32 v
  unsigned : ∀ v ∈ [d.blue_shift, d.blue_fuzz, d.std_hw, d.std_vw], 0 ≤ v ∧ v < 4294967296
  stem_snap_h : d.stem_snap_h.length = 12 ∧ ∀ v ∈ d.stem_snap_h, 0 ≤ v ∧ v < 4294967296
  stem_snap_v : d.stem_snap_v.length = 12 ∧ ∀ v ∈ d.stem_snap_v, 0 ≤ v ∧ v < 4294967296
  bounding_box : ∀ v ∈ [d.bounding_box.xMin, d.bounding_box.yMin, d.bounding_box.xMax, d.bounding_box.yMax],
    -32768 ≤ v ∧ v < 32768
  signed : ∀ v ∈ [d.adv_width_min, d.adv_width_max, d.adv_width_avg, d.ascender, d.descender, d.x_height,
    d.cap_height], IsInt32 v

/-- hinting options: some of the named options, each with value 1 and in the order of the table, and the other
set bits in increasing order -/
def OptionsOk (opts : List (PyStr × Int)) (width : Nat) (d : BitOptions) : Prop :=
  (∃ on : PyStr → Bool, d.flags = (opts.filter fun o => on o.1).map fun o => (o.1, 1)) ∧
  d.other.Pairwise (· < ·) ∧ (∀ b ∈ d.other, 0 ≤ b ∧ b < (width : Int) ∧ b ∉ opts.map Prod.snd)

/-- PCLT data whose strings may be shorter than their fields -/
structure PcltFits (d : Pclt) : Prop where
  font_number : IsUValue d.font_number
  values : ∀ v ∈ [d.pitch, d.x_height, d.style, d.type_family, d.cap_height, d.symbol_set], IsInt32 v
  typeface : d.typeface.length ≤ 16 ∧ ∀ c ∈ d.typeface, (cp1252Encode c).isSome = true
  character_complement : d.character_complement.length = 8 ∧ ∀ v ∈ d.character_complement, 0 ≤ v ∧ v < 256
  file_name : d.file_name.length ≤ 6 ∧ ∀ c ∈ d.file_name, (cp1252Encode c).isSome = true
  stroke_weight : 0 ≤ d.stroke_weight ∧ d.stroke_weight < 128
  width_type : 0 ≤ d.width_type ∧ d.width_type < 128
  serif_style : 0 ≤ d.serif_style ∧ d.serif_style < 256

/-- fill a string with NUL characters up to a given length -/
def padNul (n : Nat) (s : PyStr) : PyStr := s ++ List.replicate (n - s.length) 0

end Verif.Spec

import Verif.Model.Options
import Verif.Spec.Entry
/-! Specification vocabulary for C34. -/
set_option autoImplicit false
namespace Verif.Spec
open Verif

/-- the documented names of the export options, by increasing bit -/
def exportNames : List PyStr := exportOptionNames.map Prod.snd

/-- a switch is 0 or 1 -/
def IsSwitch (v : Int) : Prop := v = 0 ∨ v = 1

/-- a value of the font options under a given name -/
def FontOptFits (k : PyStr) : FontOpt → Prop
  | .int n => IsInt32 n ∧ k ∉ [lit "auto_hinting_h_ratio", lit "auto_hinting_v_ratio", lit "autohinting_options",
      lit "expand_kern_flags"]
  | .ratio q => k ∈ [lit "auto_hinting_h_ratio", lit "auto_hinting_v_ratio"] ∧
      ∃ n : Int, IsInt32 n ∧ q = fl ((n : Rat) / 10000)
  | .autohint d => k = lit "autohinting_options" ∧
      (0 ≤ d.single_link_attachment_precision ∧ d.single_link_attachment_precision ≤ 7) ∧
      ∀ f ∈ [d.generate_triple_hints, d.generate_delta_instructions, d.direct_links_to_center,
        d.interpolate_cusp_points, d.interpolate_double_links, d.add_link_to_rsb], IsSwitch f
  | .kern d => k = lit "expand_kern_flags" ∧
      ∀ f ∈ [d.limit_action, d.limit_codepage, d.limit_cmap_10, d.limit_font_window, d.limit_count, d.limit_keep,
        d.apply_to_assistance], IsSwitch f

/-- a dictionary of font options: known names, each at most once, with values of the right kind and range -/
def FontOptionsFit (d : List (PyStr × FontOpt)) : Prop :=
  DictOk d ∧ ∀ p ∈ d, p.1 ∈ fontOptionNames.map Prod.snd ∧ FontOptFits p.1 p.2

end Verif.Spec

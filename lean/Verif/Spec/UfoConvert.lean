import Verif.Model.UfoConvert
import Verif.Spec.UfoMasterGlyph
import Verif.Spec.UfoGlyph
/-! Specification vocabulary for C84 and C85: the UFOs made from a VFB. -/
set_option autoImplicit false
namespace Verif.Spec
open Verif

section
variable (ops : AngleOps) (deg : ops.Angle → Rat) (asm : AsmOps)

/-- the tables for TrueType stems among the entries of the file that are not ignored, in order -/
def stemTablesOf (o : BuildOpts) (es : List (FEntry ops asm)) : List StemEntry :=
  es.filterMap fun e =>
    if e.1 ∈ ignoredIds o then none
    else match e.2 with
      | some (.ttPpems d) => if e.1 = 1268 then some (.ppms d) else if e.1 = 1524 then some (.ppms1 d) else none
      | some (.ttStems d) => if e.1 = 1269 then some (.stems d) else none
      | _ => none

/-- the tables for TrueType zones and deltas among the entries of the file that are not ignored, in order -/
def zoneTablesOf (o : BuildOpts) (es : List (FEntry ops asm)) : List (TTZones ⊕ TTDeltas) :=
  es.filterMap fun e =>
    if e.1 ∈ ignoredIds o then none
    else match e.2 with
      | some (.ttZones d) => if e.1 = 1255 then some (.inl d) else none
      | some (.ttDeltas d) => if e.1 = 1273 then some (.inr d) else none
      | _ => none

/-- the stems are those of the tables of the file (see C61) -/
def StemsOf (o : BuildOpts) (es : List (FEntry ops asm)) (t : StemTables) : Prop :=
  (stemTablesOf ops asm o es).foldlM stemEntry ⟨⟨[], []⟩, ⟨[], []⟩⟩ = .ok t

/-- the zones are those of the tables of the file (see C62) -/
def ZonesOf (o : BuildOpts) (es : List (FEntry ops asm)) (t : ZoneTables) : Prop :=
  (zoneTablesOf ops asm o es).foldlM (fun s d => Sum.elim (setZones s) (setZoneDeltas s) d) ⟨[], [], []⟩ = .ok t

/-- The UFO `u` for the master `k`, made of: the glyphs `gp` (C64, C65), the TrueType stems and zones (C61, C62), the data of the masters
`mp` (C71, C80), the font info `ip` (C78, C79), and the groups, kerning and features `s` (C49, C50, C75 – C77). -/
structure IsFont (o : UfoOpts) (gp : GlyphPart ops.Angle asm.Asm) (stems : StemTables) (zones : ZoneTables) (mp : MastersPart ops.Angle)
    (ip : InfoPart asm.Asm) (s : SharedData) (k : Nat) (u : UfoFont asm.Asm) : Prop where
  features : u.features = s.text
  groups : u.groups = s.groups
  kerning : s.kerning.masterKerning k = .ok u.kerning
  info : masterInfo ops deg o.build mp ip.attrs k = .ok u.info
  /-- the glyphs are the masters of the glyphs of the font, with the same names, in the same order -/
  glyphs : Corresponds (fun e x => x.1 = e.1 ∧ ∃ labels, IsMaster ops deg asm o.build.minimal gp.order labels k e.2 x.2) gp.masters u.glyphs
  glyphOrder : u.lib.glyphOrder = gp.order
  groupOrder : u.lib.groupOrder = s.groupOrder
  keyGlyphs : u.lib.keyGlyphs = s.keyGlyphs
  userData : u.lib.userData = ip.userData
  metricsFlags : u.lib.metricsFlags = ip.metricsFlags
  tthNumbers : u.lib.tthNumbers = ip.tth
  stems : u.lib.stems = stemsLib stems
  zones : u.lib.zones = zones.zones
  tt : u.lib.tt = ip.tt

end
end Verif.Spec

import Verif.Spec.UfoConvert
import Verif.Spec.UfoMasterInfo
import Verif.Spec.UfoInfo
import Verif.Spec.UfoTth
import Verif.Spec.UfoMasters
/-! Specification vocabulary for C96: what a font needs in order to be converted. -/
set_option autoImplicit false
namespace Verif.Spec
open Verif

/-- `l[i]` exists; negative numbers count from the end -/
def InRange (n : Nat) (i : Int) : Prop := -(n : Int) ≤ i ∧ i < n

/-- The components of the glyph `name`, their components, and so on exist, and the nesting ends before `depth` levels.  `order` has the names
of the glyphs, `gids` the numbers of the components of a glyph. -/
def Nested (order : List PyStr) (gids : PyStr → Option (List Int)) : Nat → PyStr → Prop
  | 0, _ => False
  | depth + 1, name => ∃ l, gids name = some l ∧ ∀ gid ∈ l, ∃ c, pyIndex order gid = .ok c ∧ Nested order gids depth c

section
variable (ops : AngleOps) (asm : AsmOps)

/-- what the PostScript hints need: each hint has a value for the master, the links refer to existing nodes (or are ghost hints), the masks do not refer
to hints before the first one -/
structure HintsReady (k : Nat) (g : BGlyph ops.Angle asm.Asm) : Prop where
  hints : (∀ h ∈ g.hintsH, k < h.length) ∧ ∀ h ∈ g.hintsV, k < h.length
  links : ∀ l, l ∈ g.links.x ∨ l ∈ g.links.y → InRange g.nodes.length l.1 ∧ (l.2 = -1 ∨ l.2 = -2 ∨ InRange g.nodes.length l.2)
  masks : ∀ m ∈ g.hintmasks, (m.1 = lit "h" → -((g.hintsH.length + g.links.y.length : Nat) : Int) ≤ m.2) ∧
    (m.1 = lit "v" → -((g.hintsV.length + g.links.x.length : Nat) : Int) ≤ m.2)

/-- what a glyph needs for the master `k` -/
def GlyphReady (o : BuildOpts) (order : List PyStr) (k : Nat) (g : BGlyph ops.Angle asm.Asm) : Prop :=
  HasMaster ops asm o.minimal order k g ∧ (o.pshints = true → HintsReady ops asm k g)

/-- the numbers of the components of the glyph with this name -/
def gidsOf (gp : GlyphPart ops.Angle asm.Asm) (name : PyStr) : Option (List Int) :=
  (dictGet gp.masters name).map fun g => g.components.map Component.gid

/-- all zones come before the glyphs, so that each glyph knows their names -/
def ZonesFirst (es : List (FEntry ops asm)) : Prop := es.Pairwise fun a b => a.1 = 2001 → b.1 ≠ 1255

end

/-- the zones and stems that the TrueType instructions refer to -/
def fontEnv (stems : StemTables) (zones : ZoneTables) : TthEnv where
  zone := listZone zones.names
  stemsH := stems.h.stems.map UfoStem.name
  stemsV := stems.v.stems.map UfoStem.name

/-- a text of ASCII characters only -/
def Ascii (s : PyStr) : Prop := ∀ c ∈ s, c < 128

/-- the zone or stem that the instruction refers to has got an ASCII name -/
def AsciiNames (env : TthEnv) (i : Instruction) : Prop :=
  ∀ code kind rest, (i.cmd, code, kind) ∈ tthTable → TthRest env i.params kind rest → ∀ x ∈ rest, Ascii x.2

/-- Each element of the list fits to those before it. -/
def FitsAll {α : Type} (fits : List α → α → Prop) (l : List α) : Prop := ∀ pre x post, l = pre ++ x :: post → fits pre x

/-! ### TrueType stems and zones -/

/-- the stem numbers in the tables of ppms so far, for one direction -/
def declaredStems (dir : TTStems TTPpem → List TTPpem) (l : List StemEntry) : List Int :=
  l.flatMap fun t =>
    match t with
    | .ppms d => (dir d).map TTPpem.stem
    | _ => []

/-- the ppms for one pixel refer to stems that exist, and say for which size -/
def Ppms1Fit (declared : List Int) (d : List TTPpem) : Prop := ∀ x ∈ d, InRange declared.length x.stem ∧ (dictGet x.round 1).isSome

/-- the stems are numbered like the ppms, and have got a size -/
def StemsFit (declared : List Int) (d : List TTStem) : Prop := ∀ (i : Nat) x, d[i]? = some x → x.round ≠ [] ∧ declared[i]? = some (i : Int)

/-- a table for stems fits to the tables before it -/
def StemTableFits (before : List StemEntry) (t : StemEntry) : Prop :=
  (∀ d, t = .ppms1 d → Ppms1Fit (declaredStems TTStems.ttStemsH before) d.ttStemsH ∧ Ppms1Fit (declaredStems TTStems.ttStemsV before) d.ttStemsV) ∧
  ∀ d, t = .stems d → StemsFit (declaredStems TTStems.ttStemsH before) d.ttStemsH ∧ StemsFit (declaredStems TTStems.ttStemsV before) d.ttStemsV

/-- the number of zones in the tables so far -/
def zoneCount (l : List (TTZones ⊕ TTDeltas)) : Nat :=
  (l.map fun t =>
    match t with
    | .inl d => (d.ttZonesB.getD []).length + (d.ttZonesT.getD []).length
    | .inr _ => 0).sum

/-- a table of zones has got both sides; a table of deltas refers to zones that exist -/
def ZoneTableFits (before : List (TTZones ⊕ TTDeltas)) (t : TTZones ⊕ TTDeltas) : Prop :=
  (∀ d, t = .inl d → d.ttZonesB.isSome ∧ d.ttZonesT.isSome) ∧ ∀ d, t = .inr d → ∀ x ∈ d, InRange (zoneCount before) x.1

/-! ### axes -/

section
variable (ops : AngleOps) (asm : AsmOps)

/-- the numbers of mappings of the axes -/
def mappingCounts (o : BuildOpts) (es : List (FEntry ops asm)) : Option (List Int) :=
  match (dataOf ops asm o es 1515).getLast? with
  | some (.ints l) => some l
  | _ => none

/-- Axis mappings need the numbers of mappings of all axes, the names of the axes with mappings, and finite coordinates; anisotropic mappings
(unless they change nothing) need the names of all axes, and data for all axes. -/
def AxisEntryFits (o : BuildOpts) (before : List (FEntry ops asm)) (e : FEntry ops asm) : Prop :=
  (∀ l, e = (1516, some (.axisMappings l)) → ∃ cs, mappingCounts ops asm o before = some cs ∧ cs ≠ [] ∧
    ∀ j : Nat, (j : Int) < numberOf ops asm o before 1513 → ∃ n, cs[j]? = some n ∧
      (0 < n → j < (textsOf ops asm o before 1514).length ∧ ∀ p ∈ mappingsOf l j n, p.2.times1000.isSome = true)) ∧
  ∀ l, e = (1523, some (.aniso l)) → (∀ axis ∈ l, ∀ p ∈ axis, p.1 = p.2) ∨
    numberOf ops asm o before 1513 ≤ (textsOf ops asm o before 1514).length ∧ numberOf ops asm o before 1513 ≤ l.length

end
end Verif.Spec

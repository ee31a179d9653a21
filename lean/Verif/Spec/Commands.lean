import Verif.Model.Commands
import Verif.Spec.Cmdline
import Verif.Spec.Container
import Verif.Spec.UfoSuccess
import Verif.Spec.Tth
/-! Specification vocabulary for C97 and C98: what the commands `vfb2tth` and `vfb2json` need, and what they write. -/
set_option autoImplicit false
namespace Verif.Spec
open Verif

/-! ### what `vfb2tth` needs -/

/-- the larger number of zones on one side, of all entries for zones -/
def mostZones (side : TTZones → Option (List TTZone)) (es : List TthEntry) : Nat :=
  ((es.filterMap asZones).map fun z => ((side z).getD []).length).foldr max 0

/-- the instruction is a known one, it has got its points and values, and the zone and the stem it refers to exist (a stem number that is too large
stands for the first stem) -/
def Usable (top bottom : Nat) (stems : TTStems TTStem) (i : Instruction) : Prop :=
  ∃ code kind, (i.cmd, code, kind) ∈ tthTable ∧ (∀ x ∈ tthPoints kind, (dictGet i.params x.2).isSome) ∧
    (∀ b, kind = .zone b → ∃ z, dictGet i.params (lit "zone") = some z ∧ 0 ≤ z ∧ z < ((if b then bottom else top : Nat) : Int)) ∧
    (∀ h s, kind = .link h → dictGet i.params (lit "stem") = some s → 0 ≤ s → (if h then stems.ttStemsH else stems.ttStemsV) ≠ []) ∧
    (kind = .delta → ∀ k ∈ [lit "shift", lit "ppm1", lit "ppm2"], (dictGet i.params k).isSome)

/-- an entry can be processed after the entries `before`: the table for one pixel is empty; a glyph with instructions has got a name and comes
after the stems and zones that it refers to -/
def TthFits (before : List TthEntry) (e : TthEntry) : Prop :=
  (∀ d, e = .ppems1 d → d.ttStemsV = [] ∧ d.ttStemsH = []) ∧
  ∀ n is, e = .glyph n (some is) → is ≠ [] → n.isSome ∧ ∃ s, (before.filterMap asStems).getLast? = some s ∧
    ∀ i ∈ is, Usable (mostZones TTZones.ttZonesT before) (mostZones TTZones.ttZonesB before) s i

/-- what the hinting needs in order to be exported: there are stems, zones and zone deltas (even if empty); the tables of ppms refer to stems, the deltas
to zones that exist -/
structure TthReady (es : List TthEntry) : Prop where
  entries : FitsAll TthFits es
  stems : ∃ s, (es.filterMap asStems).getLast? = some s ∧ ∀ p ∈ es.filterMap asPpems,
    (∀ x ∈ p.ttStemsV, InRange s.ttStemsV.length x.stem) ∧ ∀ x ∈ p.ttStemsH, InRange s.ttStemsH.length x.stem
  zones : ∃ z d, (es.filterMap asZones).getLast? = some z ∧ (es.filterMap asDeltas).getLast? = some d ∧
    ∀ x ∈ d, InRange ((z.ttZonesB.getD []).length + (z.ttZonesT.getD []).length) x.1

/-! ### the entries of the file -/

/-- the entries that `vfb2tth` looks at: gasp, TrueType info, the tables of stems and ppms, zones and deltas, three numbers, glyphs -/
def tthIds : List Nat := [1255, 1264, 1265, 1268, 1269, 1272, 1273, 1274, 1275, 1524, 2001]

section
variable (ops : AngleOps) (asm : AsmOps)

/-- what is exported from the data of an entry with the given id -/
inductive Viewed : Nat → Decompiled ops.Angle asm.Asm → TthEntry → Prop
  | zones (z : TTZones) : Viewed 1255 (.ttZones z) (.zones z)
  | info (i : TTInfo) (ppem upm : Option Int) (hp : ∀ v, ppem = some v ↔ dictGet i 0x3C = some (.int v))
      (hu : ∀ v, upm = some v ↔ dictGet i 0x3A = some (.int v)) : Viewed 1264 (.ttInfo i) (.ttinfo ppem upm)
  | gasp (l : List GaspRec) : Viewed 1265 (.gasp l) (.gasp (l.map fun r => (r.maxPpem, r.flags)))
  | ppems (p : TTStems TTPpem) : Viewed 1268 (.ttPpems p) (.ppems p)
  | stems (s : TTStems TTStem) : Viewed 1269 (.ttStems s) (.stems s)
  | stemsnaplimit (v : Int) : Viewed 1272 (.int v) (.num (lit "stemsnaplimit") v)
  | deltas (d : TTDeltas) : Viewed 1273 (.ttDeltas d) (.deltas d)
  | zoneppm (v : Int) : Viewed 1274 (.int v) (.num (lit "zoneppm") v)
  | codeppm (v : Int) : Viewed 1275 (.int v) (.num (lit "codeppm") v)
  | ppems1 (p : TTStems TTPpem) : Viewed 1524 (.ttPpems p) (.ppems1 p)
  | glyph (g : Glyph ops.Angle asm.Asm) : Viewed 2001 (.glyph g) (.glyph g.name g.tth)

/-- the settings for the parsers, with text as UTF-8 -/
def tthCtx (es : List (Nat × Bytes)) : Ctx := ctxAll (vfbCodec ops asm) true {} es

/-- `t` is what the export sees of the entry `p` of the file -/
def SeenBy (c : Ctx) (p : Nat × Bytes) (t : TthEntry) : Prop :=
  (p.1 ∉ tthIds ∧ t = .other) ∨
  p.1 ∈ tthIds ∧ ∃ d, parseEntry ((vfbCodec ops asm).parse p.1 c) p.2 = .ok d ∧ Viewed ops asm p.1 d t

end

/-! ### files -/

/-- the folder of the output -/
def toolFolder (path : Option PyStr) (input : FPath) : PyStr := path.getD input.dir

end Verif.Spec

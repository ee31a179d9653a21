import Verif.Model.UfoConvert
import Verif.Spec.UfoGlyph
/-! Specification vocabulary for C107: two fonts that differ at most in the values for other masters than one. -/
set_option autoImplicit false
namespace Verif.Spec
open Verif

/-- two lists over the masters that have the same value for master `k` (or none at all) -/
def AtMaster {α : Type} (k : Nat) (l l' : List α) : Prop := l[k]? = l'[k]?

/-- both absent, or both there and related -/
inductive BothAnd {α : Type} (r : α → α → Prop) : Option α → Option α → Prop
  | neither : BothAnd r none none
  | both {x x' : α} : r x x' → BothAnd r (some x) (some x')

/-- the same kind of node, with the same points in master `k` -/
structure NodeAt (k : Nat) (n n' : MMNode) : Prop where
  type : n.type = n'.type
  flags : n.flags = n'.flags
  points : AtMaster k n.points n'.points

/-- a component for the same glyph, with the same scale and offset in master `k` -/
structure ComponentAt (k : Nat) (c c' : Component) : Prop where
  gid : c.gid = c'.gid
  offsetX : AtMaster k c.offsetX c'.offsetX
  offsetY : AtMaster k c.offsetY c'.offsetY
  scaleX : AtMaster k c.scaleX c'.scaleX
  scaleY : AtMaster k c.scaleY c'.scaleY

/-- the same number of guides in each direction, the same ones in master `k` -/
structure GuidesAt {A : Type} (k : Nat) (g g' : MMGuides A) : Prop where
  h : List.Forall₂ (AtMaster k) g.h g'.h
  v : List.Forall₂ (AtMaster k) g.v g'.v

/-- the same number of hints in each direction, the same ones in master `k`; the same hint replacement (which is for all masters) -/
structure HintsAt (k : Nat) (x x' : Hints) : Prop where
  h : List.Forall₂ (AtMaster k) x.h x'.h
  v : List.Forall₂ (AtMaster k) x.v x'.v
  hintmasks : x.hintmasks = x'.hintmasks

/-- Two glyphs that agree in master `k`: the name, the TrueType instructions and the imported data, which are for all masters, are
equal, and so are the values for master `k` of the nodes, metrics, hints, guides, components and kerning values. -/
structure GlyphAt {A ASM : Type} (k : Nat) (g g' : Glyph A ASM) : Prop where
  name : g.name = g'.name
  nodes : BothAnd (List.Forall₂ (NodeAt k)) g.nodes g'.nodes
  metrics : BothAnd (AtMaster k) g.metrics g'.metrics
  hints : BothAnd (HintsAt k) g.hints g'.hints
  guides : BothAnd (GuidesAt k) g.guides g'.guides
  components : BothAnd (List.Forall₂ (ComponentAt k)) g.components g'.components
  kerning : BothAnd (List.Forall₂ fun x x' => x.1 = x'.1 ∧ AtMaster k x.2 x'.2) g.kerning g'.kerning
  imported : g.imported = g'.imported
  tth : g.tth = g'.tth

section
variable (ops : AngleOps) (asm : AsmOps)

/-- Two entries that agree in master `k`.  `masks` is the number of metrics of the mask of the same glyph before the entry (these
metrics are stored master by master), `infos` the number of PostScript infos before it (there is one for each master).  The names
and locations of the masters do not matter. -/
inductive EntryAt (k masks infos : Nat) : FEntry ops asm → FEntry ops asm → Prop
  | same (e : FEntry ops asm) : EntryAt k masks infos e e
  | glyph {g g' : Glyph ops.Angle asm.Asm} : GlyphAt k g g' → EntryAt k masks infos (2001, some (.glyph g)) (2001, some (.glyph g'))
  | mask {m m' : Mask} : List.Forall₂ (NodeAt k) m.nodes m'.nodes → EntryAt k masks infos (2009, some (.mask m)) (2009, some (.mask m'))
  | maskMetrics {p p' : Int × Int} : (masks = k → p = p') → EntryAt k masks infos (2011, some (.pair p)) (2011, some (.pair p'))
  | maskMetricsMM {l l' : List (Int × Int)} : l.length = l'.length → (∀ j, masks + j = k → l[j]? = l'[j]?) →
      EntryAt k masks infos (2028, some (.pairs l)) (2028, some (.pairs l'))
  | anchors {l l' : List MMAnchor} : List.Forall₂ (fun a a' => AtMaster k a.x a'.x ∧ AtMaster k a.y a'.y) l l' →
      EntryAt k masks infos (2029, some (.anchors l)) (2029, some (.anchors l'))
  | globalGuides {g g' : MMGuides ops.Angle} : GuidesAt k g g' → EntryAt k masks infos (1294, some (.guides g)) (1294, some (.guides g'))
  | psInfo {p p' : PSInfo} : (infos = k → p = p') → EntryAt k masks infos (1536, some (.psInfo p)) (1536, some (.psInfo p'))
  | masterName {s s' : PyStr} : EntryAt k masks infos (1504, some (.str s)) (1504, some (.str s'))
  | masterLocation {l l' : Int × List Dbl} : EntryAt k masks infos (1505, some (.location l)) (1505, some (.location l'))

/-- the number of PostScript infos in an entry -/
def infoCount (e : FEntry ops asm) : Nat :=
  match e.2 with
  | some (.psInfo _) => if e.1 = 1536 then 1 else 0
  | _ => 0

/-- Two lists of entries that agree in master `k`, entry by entry: the lists are equally long and in the same order; a glyph starts a
new mask. -/
def EntriesAt (k : Nat) : Nat → Nat → List (FEntry ops asm) → List (FEntry ops asm) → Prop
  | _, _, [], [] => True
  | masks, infos, e :: es, e' :: es' => EntryAt ops asm k masks infos e e' ∧
      EntriesAt k (if (glyphOf ops asm e).isSome then 0 else masks + (maskMetricsOf ops asm [e]).length) (infos + infoCount ops asm e) es es'
  | _, _, _, _ => False

/-- Two fonts that agree in master `k`: they differ at most in the values for the other masters. -/
def FontsAt (k : Nat) (es es' : List (FEntry ops asm)) : Prop := EntriesAt ops asm k 0 0 es es'

end
end Verif.Spec

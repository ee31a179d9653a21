import Verif.Model.VfbPens
import Verif.Model.UfoMasterGlyph
/-! Model of the objects through which a glyph is read and drawn (vfb/glyph.py): one `VfbGlyph`, and any number of `VfbGlyphMaster` objects, for the same
entry, with what they keep between calls. -/
set_option autoImplicit false
namespace Verif

/-- the outline that `UfoMasterGlyph` holds after `build()`, and its name — ufo/paths.py:67-90 -/
structure Drawing where
  contours : List UfoContour
  components : List UfoComponent
  name : PyStr

/-- the glyph entry: "name" and "metrics" of its dictionary, and the rest as in `MasterGlyphs`
— vfb/glyph.py:90-102, ufo/glyph.py:24-47 -/
structure GlyphEntry where
  name : PyStr
  metrics : List Point
  glyphs : MasterGlyphs
  deriving DecidableEq

/-- the `VfbToUfoGlyph` of `_copy_to_ufo_glyph` — vfb/glyph.py:90-102, 396-408, ufo/glyph.py:24-47: only these four items are set -/
def copiedGlyph {A ASM : Type} (e : GlyphEntry) : BGlyph A ASM :=
  { name := e.name
    unicodes := []
    links := ⟨[], []⟩
    mark := none
    userData := none
    note := none
    anchors := []
    mmAnchors := none
    guideProps := ⟨[], []⟩
    background := none
    bitmaps := none
    maskNodes := []
    maskMetrics := []
    guides := none
    hintsH := []
    hintsV := []
    hintmasks := []
    metrics := e.metrics
    nodes := e.glyphs.data.nodes.getD []
    components := e.glyphs.data.components.getD []
    tth := none
    instructions := none }

section
variable (ops : AngleOps) (deg : ops.Angle → Rat) (asm : AsmOps)

/-- the contours that are finished when `_extract_master_contours` ends or raises an exception — ufo/paths.py:119-180; and whether it has not raised one -/
def contoursUntil (m : Nat) : ContourState → Nat → List MMNode → List UfoContour × Bool
  | st, _, [] =>
    match appendContour st with
    | .ok st' => (st'.contours, true)
    | .error _ => (st.contours, false)
  | st, i, n :: ns =>
    match contourStep [] m false st i n with
    | .ok st' => contoursUntil m st' (i + 1) ns
    | .error _ => (st.contours, false)

/-- the components that are appended when `_extract_master_contours` ends or raises an exception — ufo/paths.py:186-211 -/
def componentsUntil (order : List PyStr) (m : Nat) : List Component → List UfoComponent
  | [] => []
  | c :: cs =>
    match masterComponent order m c with
    | .ok u => u :: componentsUntil order m cs
    | .error _ => []

/-- what `_glyph` holds after `build()` has ended or raised an exception — ufo/paths.py:67-90: without metrics for the master it stops before the outlines -/
def builtSoFar (order : List PyStr) (m : Nat) (e : GlyphEntry) : Drawing :=
  if m < e.metrics.length then
    let r := contoursUntil m ⟨[], [], [], false, false⟩ 0 (e.glyphs.data.nodes.getD [])
    ⟨r.1, if r.2 then componentsUntil order m (e.glyphs.data.components.getD []) else [], e.name⟩
  else ⟨[], [], e.name⟩

/-- the exception of `_copy_to_ufo_glyph` — vfb/glyph.py:82-111, 388-417 — if there is one; `m` is the master that is drawn.  The object is stored in
`_glyph` before its `build()` is called. -/
def buildError (order : List PyStr) (m : Nat) (e : GlyphEntry) : Option PyErr :=
  match masterGlyph ops deg asm ⟨false, false, true⟩ false 0 order ⟨[], []⟩ e.name (copiedGlyph e) [] m with
  | .ok _ => none
  | .error x => some x

/-- an object: `points` is the master that `drawPoints` draws — `_parent.master_index` for a `VfbGlyph` (vfb/glyph.py:83-109; it is 0, as the parent is
the Vfb), `master_index` for a `VfbGlyphMaster` —, `index` is `master_index`, `cache` is `_glyph`, and `nameCache` the cached `name` -/
structure GlyphObject where
  points : Nat
  index : Nat
  cache : Option Drawing
  nameCache : Option (Option PyStr)

/-- the entry and the objects; the `VfbGlyph` is `main`, the `VfbGlyphMaster`s are `masters`.  `count` and `order` are `num_masters` and `glyph_order` of the
font. — vfb/glyph.py:25-111, 361-467 -/
structure GlyphState where
  count : Nat
  order : List PyStr
  entry : GlyphEntry
  main : GlyphObject
  masters : List GlyphObject

/-- which object: the `VfbGlyph`, or the `VfbGlyphMaster` number `i`
— vfb/glyph.py:25-111, 361-467 -/
inductive ObjRef where
  | main
  | master (i : Nat)
  deriving DecidableEq

/-- what a user does — vfb/glyph.py:25-111, 361-467 -/
inductive GlyphOp where
  /-- `vfb.getGlyphMaster(key, m)`, or `vfb.get_masters()[m][key]`: a new object -/
  | getMaster (m : Nat)
  | drawPoints (o : ObjRef)
  /-- `glyph.draw(pen)`; there is no such method for a master -/
  | draw
  | len (o : ObjRef)
  | name (o : ObjRef)
  | clearContours (o : ObjRef)
  /-- `getPointPen()`, and calls of the pen -/
  | drawInto (o : ObjRef) (calls : List PenCall)
  /-- `glyph.master_index = m` -/
  | setIndex (m : Nat)
  /-- `glyph.entry.data["name"] = n` -/
  | rename (n : PyStr)

/-- what a call returns, or draws — vfb/glyph.py:25-111, 361-467 -/
inductive GlyphResult where
  | done
  | points (d : List UfoContour × List UfoComponent)
  | segments (l : List SegCall)
  | count (n : Nat)
  | name (n : Option PyStr)
  | error (e : PyErr)

/-- the object; `none` if there is no such object (then an operation does nothing)
— vfb/glyph.py:25-111, 361-467 -/
def GlyphState.obj (s : GlyphState) : ObjRef → Option GlyphObject
  | .main => some s.main
  | .master i => s.masters[i]?

/-- an object replaced — vfb/glyph.py:25-111, 361-467 -/
def GlyphState.setObj (s : GlyphState) (o : GlyphObject) : ObjRef → GlyphState
  | .main => { s with main := o }
  | .master i => { s with masters := s.masters.set i o }

/-- `clearContours()` of both classes — vfb/glyph.py:60-65, 419-432 (hints are left out of the model): a `VfbGlyph` clears the entry itself, whatever its
`master_index` is -/
def clearEntry (count : Nat) (o : ObjRef) (index : Nat) (g : MasterGlyphs) : MasterGlyphs × Option PyErr :=
  match o with
  | .main => ({ g with data := { g.data with nodes := some [] } }, none)
  | .master _ => g.clearContours count index

/-- `getPointPen()` and calls of the pen — vfb/glyph.py:347-358, 456-467 -/
def drawEntry (count index : Nat) (order : List PyStr) (calls : List PenCall) (g : MasterGlyphs) : MasterGlyphs × Option PyErr :=
  match g.pen index with
  | (g, .error e) => (g, some e)
  | (g, .ok none) => (g, some .type)
  | (g, .ok (some d)) =>
    let r := runPen count order ⟨d, none⟩ calls
    (g.put index r.1.target, r.2)

/-- the result of a call — vfb/glyph.py:25-111, 361-467 -/
def resultOf : Option PyErr → GlyphResult
  | none => .done
  | some e => .error e

/-- one operation — vfb/glyph.py -/
def sessionStep (s : GlyphState) : GlyphOp → GlyphState × GlyphResult
  | .getMaster m => ({ s with masters := s.masters ++ [⟨m, m, none, none⟩] }, .done)
  | .drawPoints r =>
    match s.obj r with
    | none => (s, .done)
    | some o =>
      -- vfb/glyph.py:269-282, 434-447
      match o.cache with
      | some d => (s, .points (d.contours, d.components))
      | none =>
        let d := builtSoFar s.order o.points s.entry
        (s.setObj { o with cache := some d } r,
          match buildError ops deg asm s.order o.points s.entry with
          | some e => .error e
          | none => .points (d.contours, d.components))
  | .draw =>
    match drawGlyph s.order s.main.index (s.entry.glyphs.data.nodes.getD []) (s.entry.glyphs.data.components.getD []) with
    | .error e => (s, .error e)
    | .ok l => (s, .segments l)
  | .len r =>
    match s.obj r with
    | none => (s, .done)
    | some _ =>
      -- vfb/glyph.py:40-51, 368-379: KeyError without "nodes"
      match s.entry.glyphs.data.nodes with
      | none => (s, .error .key)
      | some nodes => (s, .count (nodes.countP fun n => n.type == .move))
  | .name r =>
    match s.obj r with
    | none => (s, .done)
    | some o =>
      -- vfb/glyph.py:53-58, 381-386; a cached property
      match o.nameCache with
      | some n => (s, .name n)
      | none => (s.setObj { o with nameCache := some (o.cache.map Drawing.name) } r, .name (o.cache.map Drawing.name))
  | .clearContours r =>
    match s.obj r with
    | none => (s, .done)
    | some o =>
      let g := clearEntry s.count r o.index s.entry.glyphs
      ({ s with entry := { s.entry with glyphs := g.1 } }, resultOf g.2)
  | .drawInto r calls =>
    match s.obj r with
    | none => (s, .done)
    | some o =>
      let g := drawEntry s.count o.index s.order calls s.entry.glyphs
      ({ s with entry := { s.entry with glyphs := g.1 } }, resultOf g.2)
  | .setIndex m => ({ s with main := { s.main with index := m } }, .done)
  | .rename n => ({ s with entry := { s.entry with name := n } }, .done)

/-- a history — vfb/glyph.py:25-111, 361-467 -/
def sessionRun (s : GlyphState) : List GlyphOp → GlyphState × List GlyphResult
  | [] => (s, [])
  | c :: cs =>
    let r := sessionStep ops deg asm s c
    let rs := sessionRun r.1 cs
    (rs.1, r.2 :: rs.2)

end
end Verif

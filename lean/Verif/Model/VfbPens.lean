import Verif.Model.Merge
import Verif.Model.Float
import Verif.Model.UfoPaths
/-! Model of drawing into a VFB glyph (vfb/pens.py, vfb/glyph.py) and of drawing it (vfb/glyph.py). -/
set_option autoImplicit false
namespace Verif

/-- the transformation of a component; offsets are whole numbers (`int`), the scale is kept as it is
— vfb/pens.py:33-128 -/
structure Transform where
  xx : Dbl
  xy : Dbl
  yx : Dbl
  yy : Dbl
  dx : Int
  dy : Int
  deriving DecidableEq, Repr

/-- a call of a method of a point pen; a segment type other than "move", "line", "curve", "qcurve" or `None` is not represented (it is
treated like "curve": ValueError) — vfb/pens.py:33-128 -/
inductive PenCall
  | beginPath
  | addPoint (pt : Rat × Rat) (seg : Option PathCommand) (smooth : Bool) (name : Option PyStr)
  | endPath
  | addComponent (base : PyStr) (t : Transform)
  deriving DecidableEq

/-- `VfbGlyphPointPen`: the dictionary it draws into, and `currentPath`.  (`in_qcurve` is always true where it is tested.)
— vfb/pens.py:33-128 -/
structure PointPen where
  target : MasterData
  path : Option (List MMNode)
  deriving DecidableEq

/-- `addPoint`: the node — vfb/pens.py:51-99; `n` is `glyphSet.num_masters` -/
def penNode (n : Nat) (path : List MMNode) (pt : Rat × Rat) (seg : Option PathCommand) : Except PyErr MMNode :=
  let points := List.replicate n [(roundEven pt.1, roundEven pt.2)]
  if path.isEmpty then .ok ⟨.move, some (if seg = some .move then 8 else 0), points⟩
  else match seg with
    | none => .ok ⟨.qcurve, some 0, points⟩
    | some .qcurve => .ok ⟨.line, some 0, points⟩
    | some .line => .ok ⟨.line, some 0, points⟩
    | some _ => .error .value

/-- `glyph_order.index(name)`: ValueError if it is not there — vfb/pens.py:33-128 -/
def indexOf (order : List PyStr) (name : PyStr) : Except PyErr Nat :=
  match order.findIdx? (· == name) with
  | some i => .ok i
  | none => .error .value

/-- one call — vfb/pens.py:33-128: the pen afterwards, and the exception -/
def penStep (n : Nat) (order : List PyStr) (pen : PointPen) : PenCall → PointPen × Option PyErr
  | .beginPath => ({ pen with path := some [] }, none)
  | .addPoint pt seg _ _ =>
    match pen.path with
    | none => (pen, some .assertion)
    | some path =>
      match penNode n path pt seg with
      | .error e => (pen, some e)
      | .ok node => ({ pen with path := some (path ++ [node]) }, none)
  | .endPath =>
    match pen.path with
    | none => ({ pen with target := { pen.target with nodes := some (pen.target.nodes.getD []) } }, some .type)
    | some path => (⟨{ pen.target with nodes := some (pen.target.nodes.getD [] ++ path) }, none⟩, none)
  | .addComponent base t =>
    match pen.path with
    | some _ => (pen, some .assertion)
    | none =>
      match indexOf order base with
      | .error e => (pen, some e)
      | .ok i =>
        ({ pen with target := { pen.target with components := some (pen.target.components.getD [] ++
            [⟨i, List.replicate n t.dx, List.replicate n t.dy, List.replicate n t.xx, List.replicate n t.yy⟩]) } }, none)

/-- calls one after the other, up to the first exception — vfb/glyph.py:347-358 -/
def runPen (n : Nat) (order : List PyStr) : PointPen → List PenCall → PointPen × Option PyErr
  | pen, [] => (pen, none)
  | pen, c :: cs =>
    match penStep n order pen c with
    | (pen', none) => runPen n order pen' cs
    | (pen', some e) => (pen', some e)

/-- the data of a glyph entry: the nodes and components of `entry.data`, and `entry.temp_masters`, in which `none` stands for a
list instead of a dictionary (see `pen`).  Hints, which `clearContours` deletes, are left out.
— vfb/glyph.py:419-432 -/
structure MasterGlyphs where
  data : MasterData
  temp : Option (List (Option MasterData))
  deriving DecidableEq

/-- `VfbGlyphMaster.clearContours()` — vfb/glyph.py:419-432; `m` is `master_index` -/
def MasterGlyphs.clearContours (n m : Nat) (g : MasterGlyphs) : MasterGlyphs × Option PyErr :=
  if m = 0 then ({ g with data := { g.data with nodes := some [] } }, none)
  else
    let temp := g.temp.getD (List.replicate n (some ⟨none, none⟩))
    match temp[m]? with
    | none => ({ g with temp := some temp }, some .index)
    | some none => ({ g with temp := some temp }, some .type)
    | some (some d) => ({ g with temp := some (temp.set m (some { d with nodes := some [] })) }, none)

/-- `VfbGlyphMaster.getPointPen()`: the dictionary into which the pen draws — vfb/glyph.py:456-467, vfb/pens.py:16-31: `[[] * n]` is a
list with one empty list in it -/
def MasterGlyphs.pen (m : Nat) (g : MasterGlyphs) : MasterGlyphs × Except PyErr (Option MasterData) :=
  if m = 0 then (g, .ok (some g.data))
  else
    let temp := g.temp.getD [none]
    ({ g with temp := some temp }, match temp[m]? with
      | none => .error .index
      | some t => .ok t)

/-- the dictionary of the pen, put back where it belongs
— vfb/glyph.py:456-467, vfb/pens.py:16-31 -/
def MasterGlyphs.put (m : Nat) (g : MasterGlyphs) (d : MasterData) : MasterGlyphs :=
  if m = 0 then { g with data := d } else { g with temp := g.temp.map fun l => l.set m (some d) }

/-- what converters like cu2qu do with the glyph of a master: `clearContours()`, `getPointPen()` and calls of the pen.  (A pen without
a dictionary raises TypeError at `endPath` or `addComponent`; here it does so at once.)
— vfb/glyph.py:419-432, 456-467 -/
def MasterGlyphs.redraw (n m : Nat) (order : List PyStr) (calls : List PenCall) (g : MasterGlyphs) : MasterGlyphs × Option PyErr :=
  match g.clearContours n m with
  | (g, some e) => (g, some e)
  | (g, none) =>
    match g.pen m with
    | (g, .error e) => (g, some e)
    | (g, .ok none) => (g, some .type)
    | (g, .ok (some d)) =>
      let r := runPen n order ⟨d, none⟩ calls
      (g.put m r.1.target, r.2)

/-! ### drawing with a segment pen -/

/-- a call of a method of a segment pen — vfb/glyph.py:198-267 -/
inductive SegCall
  | moveTo (pt : Point)
  | lineTo (pt : Point)
  | curveTo (c1 c2 pt : Point)
  | qCurveTo (pts : List Point)
  | closePath
  | endPath
  | addComponent (base : PyStr) (scaleX scaleY : Dbl) (offsetX offsetY : Int)
  deriving DecidableEq, Repr

/-- the variables of `VfbGlyph.draw` — vfb/glyph.py:206-209, with the calls so far -/
structure DrawState where
  calls : List SegCall
  isOpen : Bool
  inPath : Bool
  inQcurve : Bool
  qcurve : List Point
  deriving DecidableEq, Repr

/-- `if path_is_open: pen.endPath() else: pen.closePath()` — vfb/glyph.py:211-250 -/
def closeCall (isOpen : Bool) : SegCall := if isOpen then .endPath else .closePath

/-- the loop of `VfbGlyph.draw` — vfb/glyph.py:211-250 -/
def drawStep (m : Nat) (st : DrawState) (n : MMNode) : Except PyErr DrawState :=
  let flags := n.flags.getD 0
  pyIndex n.points m >>= fun points =>
  pyIndex points 0 >>= fun pt =>
  match n.type with
  | .move =>
    let calls := if st.inQcurve then st.calls ++ [.qCurveTo (st.qcurve ++ [pt])] else st.calls
    let calls := if st.inPath then calls ++ [closeCall st.isOpen] else calls
    .ok ⟨calls ++ [.moveTo pt], flagOpen flags, true, false, []⟩
  | .line =>
    if st.inQcurve then
      .ok { st with
        calls := st.calls ++ [.qCurveTo (st.qcurve ++ [pt])]
        inQcurve := false
        qcurve := [] }
    else .ok { st with calls := st.calls ++ [.lineTo pt] }
  | .curve =>
    match points with
    | [pt, c1, c2] => .ok { st with calls := st.calls ++ [.curveTo c1 c2 pt] }
    | _ => .error .value
  | .qcurve =>
    .ok { st with
      inQcurve := true
      qcurve := st.qcurve ++ [pt] }

/-- one component — vfb/glyph.py:257-267 -/
def drawComponent (order : List PyStr) (m : Nat) (c : Component) : Except PyErr SegCall :=
  pyIndex order c.gid >>= fun base =>
  pyIndex c.scaleX m >>= fun sx =>
  pyIndex c.scaleY m >>= fun sy =>
  pyIndex c.offsetX m >>= fun ox =>
  pyIndex c.offsetY m >>= fun oy =>
  .ok (.addComponent base sx sy ox oy)

/-- `VfbGlyph.draw(pen)` — vfb/glyph.py:198-267: the calls of the pen -/
def drawGlyph (order : List PyStr) (m : Nat) (nodes : List MMNode) (components : List Component) : Except PyErr (List SegCall) :=
  nodes.foldlM (drawStep m) ⟨[], false, false, false, []⟩ >>= fun st =>
  components.mapM (drawComponent order m) >>= fun cs =>
  .ok ((if st.inPath then st.calls ++ [closeCall st.isOpen] else st.calls) ++ cs)

/-- a call of a method of a point pen by `drawPointsDirect` — vfb/glyph.py:284-338; of the transformation, the two elements that are
always 0 are left out -/
inductive PointCall
  | beginPath
  | addPoint (pt : Point) (seg : Option PathCommand)
  | endPath
  | addComponent (base : PyStr) (sx sy : Dbl) (ox oy : Int)
  deriving DecidableEq, Repr

/-- the variables of `VfbGlyph.drawPointsDirect` — vfb/glyph.py:294-295, with the calls so far -/
structure DirectState where
  calls : List PointCall
  inPath : Bool
  inQcurve : Bool
  deriving DecidableEq, Repr

/-- the loop of `VfbGlyph.drawPointsDirect` — vfb/glyph.py:297-326 -/
def directStep (m : Nat) (st : DirectState) (n : MMNode) : Except PyErr DirectState :=
  pyIndex n.points m >>= fun points =>
  match n.type with
  | .curve =>
    match points with
    | [pt3, pt1, pt2] => .ok { st with calls := st.calls ++ [.addPoint pt1 none, .addPoint pt2 none, .addPoint pt3 (some .curve)] }
    | _ => .error .value
  | .move =>
    pyIndex points 0 >>= fun pt =>
    let calls := if st.inQcurve then st.calls ++ [.addPoint pt (some .qcurve)] else st.calls
    let calls := if st.inPath then calls ++ [.endPath] else calls
    .ok ⟨calls ++ [.beginPath, .addPoint pt (some .move)], true, false⟩
  | .line =>
    pyIndex points 0 >>= fun pt =>
    .ok { st with
      calls := st.calls ++ [.addPoint pt (some (if st.inQcurve then .qcurve else .line))]
      inQcurve := false }
  | .qcurve =>
    pyIndex points 0 >>= fun pt =>
    .ok { st with
      calls := st.calls ++ [.addPoint pt none]
      inQcurve := true }

/-- one component — vfb/glyph.py:328-338 -/
def directComponent (order : List PyStr) (m : Nat) (c : Component) : Except PyErr PointCall :=
  pyIndex order c.gid >>= fun base =>
  pyIndex c.scaleX m >>= fun sx =>
  pyIndex c.scaleY m >>= fun sy =>
  pyIndex c.offsetX m >>= fun ox =>
  pyIndex c.offsetY m >>= fun oy =>
  .ok (.addComponent base sx sy ox oy)

/-- `VfbGlyph.drawPointsDirect(pen)` — vfb/glyph.py:284-338: the calls of the pen -/
def drawDirect (order : List PyStr) (m : Nat) (nodes : List MMNode) (components : List Component) : Except PyErr (List PointCall) :=
  nodes.foldlM (directStep m) ⟨[], false, false⟩ >>= fun st =>
  components.mapM (directComponent order m) >>= fun cs =>
  .ok ((if st.inPath then st.calls ++ [.endPath] else st.calls) ++ cs)

end Verif

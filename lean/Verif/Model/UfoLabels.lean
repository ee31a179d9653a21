import Verif.Py
import Verif.Model.UfoKerning
/-! Model of the point labels of `ufo/glyph.py`: `VfbToUfoGlyph.get_point_label`.

Of the builder only `glyphOrder` and `glyph_masters` are used; a glyph is addressed by its name in
`glyph_masters`.  A glyph without builder (the ValueError branch) is not modelled: the builder always passes
itself (ufo/builder.py:179). -/
set_option autoImplicit false
namespace Verif

/-- `vfb2ufo_label_codes` — ufo/vfb2ufo.py:58-74 -/
def labelCodes : List (PyStr × PyStr) :=
  [(lit "AlignBottom", lit "ab"), (lit "AlignTop", lit "at"),
   (lit "SingleLinkH", lit "sh"), (lit "SingleLinkV", lit "sv"),
   (lit "DoubleLinkH", lit "dh"), (lit "DoubleLinkV", lit "dv"),
   (lit "AlignH", lit "ah"), (lit "AlignV", lit "av"),
   (lit "InterpolateH", lit "ih"), (lit "InterpolateV", lit "iv"),
   (lit "MDeltaH", lit "mh"), (lit "MDeltaV", lit "mv"),
   (lit "FDeltaH", lit "fh"), (lit "FDeltaV", lit "fv"),
   (lit "PSHintReplacement", lit "hr")]

/-- `"%02d" % i` for a non-negative integer — ufo/glyph.py:96-101 -/
def pad2 (i : Nat) : PyStr := if i < 10 then 48 :: natDec i else natDec i

/-- the part of `VfbToUfoGlyph` that concerns labels — ufo/glyph.py:24-47: `len(mm_nodes)`, the `gid`s of
`mm_components`, `labels` and `point_labels` -/
structure LabelGlyph where
  numNodes : Nat
  gids : List Int
  labels : List (PyStr × Int)
  pointLabels : List (Int × PyStr)
  deriving DecidableEq, Repr

/-- the search for a free label — ufo/glyph.py:96-101: `i += 1` while the label is taken.  `fuel` bounds the
number of steps; `C52_search` shows that it is never reached when it exceeds the number of labels. -/
def labelSearch (labels : List (PyStr × Int)) (short : PyStr) : Nat → Nat → Except PyErr PyStr
  | 0, _ => .error .fuel
  | fuel + 1, i =>
    if (dictGet labels (short ++ pad2 i)).isSome then labelSearch labels short fuel (i + 1)
    else .ok (short ++ pad2 i)

/-- `get_point_label(index, code, start_count)` for a glyph without components — ufo/glyph.py:84-104 -/
def LabelGlyph.pointLabel (g : LabelGlyph) (index : Int) (code : PyStr) (start : Nat) :
    Except PyErr (PyStr × LabelGlyph) :=
  match dictGet g.pointLabels index with
  | some l => .ok (l, g)
  | none =>
    if index = g.numNodes then .ok (lit "lsb", g)
    else if index = g.numNodes + 1 then .ok (lit "rsb", g)
    else
      match dictGet labelCodes code with
      | none => .error .key
      | some short =>
        match labelSearch g.labels short (g.labels.length + 1) start with
        | .error e => .error e
        | .ok label =>
          .ok (label, { g with
            labels := dictSet g.labels label index
            pointLabels := dictSet g.pointLabels index label })

/-- `builder.glyphOrder` and `builder.glyph_masters` — ufo/glyph.py:60-71 -/
structure LabelFont where
  order : List PyStr
  glyphs : List (PyStr × LabelGlyph)
  deriving DecidableEq, Repr

/-- the result of the search for the component — ufo/glyph.py:60-71 -/
inductive Located where
  /-- the point belongs to component number `i`, which is the glyph `name`; `index` is relative to it -/
  | inside (name : PyStr) (i : Nat) (index : Int)
  /-- the total number of nodes of all components -/
  | beyond (total : Nat)
  deriving DecidableEq, Repr

/-- the loop over the components — ufo/glyph.py:60-71 -/
def locate (f : LabelFont) : List Int → Nat → Int → Nat → Except PyErr Located
  | [], _, _, total => .ok (.beyond total)
  | gid :: gids, i, index, total =>
    match pyIndex f.order gid with
    | .error e => .error e
    | .ok name =>
      match dictGet f.glyphs name with
      | none => .error .key
      | some c =>
        if index < c.numNodes then .ok (.inside name i index)
        else locate f gids (i + 1) (index - c.numNodes) (total + c.numNodes)

/-- `get_point_label(index, code, start_count)` — ufo/glyph.py:49-104, called on `glyph_masters[name]`.  `depth`
is the recursion limit of Python (RecursionError is a RuntimeError). -/
def getPointLabel : Nat → LabelFont → PyStr → Int → PyStr → Nat → Except PyErr (PyStr × LabelFont)
  | 0, _, _, _, _, _ => .error .runtime
  | depth + 1, f, name, index, code, start =>
    match dictGet f.glyphs name with
    | none => .error .key
    | some g =>
      if g.gids.isEmpty then
        match g.pointLabel index code start with
        | .error e => .error e
        | .ok (l, g') => .ok (l, { f with glyphs := dictSet f.glyphs name g' })
      else
        match locate f g.gids 0 index 0 with
        | .error e => .error e
        | .ok (.inside c i index') =>
          match getPointLabel depth f c index' code 1 with
          | .error e => .error e
          | .ok (l, f') => .ok (l ++ lit "-" ++ natDec i, f')
        | .ok (.beyond total) =>
          if index = total then .ok (lit "lsb", f)
          else if index = total + 1 then .ok (lit "rsb", f)
          else .ok (lit "invalid", f)

/-- one call of `get_point_label` — ufo/glyph.py:49-104 -/
structure LabelCall where
  glyph : PyStr
  index : Int
  code : PyStr
  start : Nat
  deriving DecidableEq, Repr

/-- a call together with its effect: an exception leaves the labels as they were
— ufo/glyph.py:49-104 -/
def LabelCall.run (depth : Nat) (f : LabelFont) (c : LabelCall) : Except PyErr PyStr × LabelFont :=
  match getPointLabel depth f c.glyph c.index c.code c.start with
  | .error e => (.error e, f)
  | .ok (l, f') => (.ok l, f')

/-- a history of calls with their results — ufo/glyph.py:49-104 -/
def runLabelCalls (depth : Nat) : LabelFont → List LabelCall → List (Except PyErr PyStr) × LabelFont
  | f, [] => ([], f)
  | f, c :: cs =>
    let r := c.run depth f
    let rs := runLabelCalls depth r.2 cs
    (r.1 :: rs.1, rs.2)

/-- `VfbToUfoGlyph.__lt__` — ufo/glyph.py:140-149, on (number of components, name) -/
def glyphLt (a b : Nat × PyStr) : Bool :=
  if a.1 < b.1 then true
  else if a.1 = b.1 then decide (a.2 < b.2)
  else false

/-- `VfbToUfoGlyph.__gt__` — ufo/glyph.py:129-138 -/
def glyphGt (a b : Nat × PyStr) : Bool :=
  if a.1 > b.1 then true
  else if a.1 = b.1 then decide (b.2 < a.2)
  else false

/-- `VfbToUfoGlyph.__eq__` — ufo/glyph.py:122-127 -/
def glyphEq (a b : Nat × PyStr) : Bool := a.1 = b.1 && a.2 = b.2

end Verif

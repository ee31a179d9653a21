import Verif.Model.Outline
import Verif.Model.UfoLabels
/-! Model of `ufo/pshints.py`: PostScript hints for the UFO.  Log messages are not modelled;
`update_adobe_hinting` is in `Model/AdobeHints.lean`. -/
set_option autoImplicit false
namespace Verif

/-- `HintTuple`: the direction ("hstem", "vstem"), position and width — typing.py:225 -/
abbrev Stem := PyStr × Int × Int

/-- `normalize_hint(hint)` — ufo/pshints.py:18-24 -/
def normalizeHint (hint : Stem) : Stem :=
  let (direction, pos, width) := hint
  if width < 0 then
    if width ≠ -21 ∧ width ≠ -20 then (direction, pos + width, (width.natAbs : Int))
    else (direction, pos, width)
  else (direction, pos, width)

/-- `normalize_hint_dict(hint, name)` — ufo/pshints.py:27-28: a `HintDict` is the pair of `pos` and `width` -/
def normalizeHintDict (hint : Int × Int) (name : PyStr) : Stem := normalizeHint (name, hint.1, hint.2)

/-- the parts of `VfbToUfoGlyph` used by the hints: `mm_hints` (per direction a list of hints, each a list over the
masters), `links` (`none` if the dictionary is empty), `hintmasks`, `mm_nodes`
— ufo/pshints.py:236-277 -/
structure HintGlyph where
  h : List (List (Int × Int))
  v : List (List (Int × Int))
  links : Option (List (Int × Int) × List (Int × Int))
  masks : List (PyStr × Int)
  nodes : List MMNode
  deriving DecidableEq, Repr

/-- `nodes[i]["points"][master_index][0][axis]` — ufo/pshints.py:258-259, 267-268 -/
def nodeCoord (nodes : List MMNode) (master : Nat) (axis : Nat) (i : Int) : Except PyErr Int := do
  let n ← pyIndex nodes i
  let pts ← pyIndex n.points master
  let p ← pyIndex pts 0
  pure (if axis = 0 then p.1 else p.2)

/-- one link of one axis — ufo/pshints.py:256-275 -/
def linkToHint (nodes : List MMNode) (master : Nat) (axis : Nat) (link : Int × Int) : Except PyErr Stem := do
  let src ← nodeCoord nodes master axis link.1
  let d := if axis = 0 then lit "vstem" else lit "hstem"
  if link.2 = -1 then pure (d, src - -21, -21)
  else if link.2 = -2 then pure (d, src, -20)
  else do
    let tgt ← nodeCoord nodes master axis link.2
    pure (d, src, tgt - src)

/-- `get_master_hints(mmglyph, master_index)` — ufo/pshints.py:236-277: the lists "h" and "v" -/
def getMasterHints (g : HintGlyph) (master : Nat) : Except PyErr (List Stem × List Stem) := do
  let hs ← g.h.mapM fun mm => do
    let x ← pyIndex mm master
    pure (normalizeHintDict x (lit "hstem"))
  let vs ← g.v.mapM fun mm => do
    let x ← pyIndex mm master
    pure (normalizeHintDict x (lit "vstem"))
  match g.links with
  | none => pure (hs, vs)
  | some (lx, ly) => do
    let vl ← lx.mapM (linkToHint g.nodes master 0)
    let hl ← ly.mapM (linkToHint g.nodes master 1)
    pure (hs ++ hl, vs ++ vl)

/-- the local variables of `build_ps_glyph_hints`: the node index and stems of the current hint set (the index is
kept as a string; `int(str(i))` is `i`), the finished hint sets, the labels
— ufo/pshints.py:151-180 -/
structure HintState where
  tag : Int
  stems : List Stem
  sets : List (PyStr × List Stem)
  font : LabelFont
  deriving DecidableEq, Repr

/-- the label of the current hint set, and the set appended to the list — ufo/pshints.py:169-174, 183-188 -/
def closeHintSet (depth : Nat) (name : PyStr) (st : HintState) : Except PyErr HintState := do
  let (l, font) ← getPointLabel depth st.font name st.tag (lit "PSHintReplacement") 0
  pure { st with sets := st.sets ++ [(l, st.stems)], font := font }

/-- a mask for one direction — ufo/pshints.py:158-167 -/
def addMaskedHint (hints : List Stem) (i : Int) (st : HintState) : Except PyErr HintState :=
  if i < hints.length then do
    let hint ← pyIndex hints i
    pure { st with stems := st.stems ++ [hint] }
  else pure st

/-- one mask — ufo/pshints.py:155-180 -/
def applyMask (depth : Nat) (name : PyStr) (hs vs : List Stem) (st : HintState) (mask : PyStr × Int) :
    Except PyErr HintState :=
  (if mask.1 = lit "h" then addMaskedHint hs mask.2 st else .ok st) >>= fun st =>
  (if mask.1 = lit "v" then addMaskedHint vs mask.2 st else .ok st) >>= fun st =>
  if mask.1 = lit "r" then
    closeHintSet depth name st >>= fun st =>
    .ok { st with
      tag := if mask.2 < 0 then (mask.2.natAbs : Int) - 1 else mask.2
      stems := [] }
  else .ok st

/-- the order of tuples — ufo/pshints.py:203-223 -/
def stemLt (a b : Stem) : Bool :=
  if a.1 < b.1 then true
  else if a.1 = b.1 then
    if a.2.1 < b.2.1 then true
    else if a.2.1 = b.2.1 then decide (a.2.2 < b.2.2)
    else false
  else false

/-- insertion into a sorted list without duplicates — ufo/pshints.py:203-223 -/
def insertStem (x : Stem) : List Stem → List Stem
  | [] => [x]
  | y :: l => if x = y then y :: l else if stemLt x y then x :: y :: l else y :: insertStem x l

/-- `sorted(set(stems))` — ufo/pshints.py:203-223 -/
def sortedSet (l : List Stem) : List Stem := l.foldr insertStem []

/-- `f"{h[0]} {h[1]} {h[2]}"` — ufo/pshints.py:209 -/
def stemText (h : Stem) : PyStr := h.1 ++ lit " " ++ intDec h.2.1 ++ lit " " ++ intDec h.2.2

/-- the reformatting of the hint sets — ufo/pshints.py:203-223: the sets that are not empty, by label -/
def reformatSets (sets : List (PyStr × List Stem)) : List (PyStr × List PyStr) :=
  sets.foldl (fun d s =>
    let stems := (sortedSet s.2).map stemText
    if stems.isEmpty then d else dictSet d s.1 stems) []

/-- `build_ps_glyph_hints(mmglyph, glyph, master_hints)` — ufo/pshints.py:31-233: the list of hint sets (nothing
is added to the lib if it is empty) and the labels -/
def buildPsGlyphHints (depth : Nat) (font : LabelFont) (name : PyStr) (g : HintGlyph) (hints : List Stem × List Stem) :
    Except PyErr (List (PyStr × List PyStr) × LabelFont) := do
  let st : HintState := { tag := 0, stems := [], sets := [], font := font }
  if g.masks.isEmpty then
    let st := { st with stems := hints.1 ++ hints.2 }
    let st ← if st.stems.isEmpty then pure st else closeHintSet depth name st
    pure (reformatSets st.sets, st.font)
  else do
    let st ← g.masks.foldlM (applyMask depth name hints.1 hints.2) st
    let st ← if st.stems.isEmpty then pure st else closeHintSet depth name st
    pure (reformatSets st.sets, st.font)

/-- `UfoMasterGlyph._extract_master_ps_hints` — ufo/paths.py:235-246 -/
def masterPsHints (depth : Nat) (font : LabelFont) (name : PyStr) (g : HintGlyph) (master : Nat) :
    Except PyErr (List (PyStr × List PyStr) × LabelFont) := do
  let hints ← getMasterHints g master
  buildPsGlyphHints depth font name g hints

end Verif

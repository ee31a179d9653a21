import Verif.Model.Outline
import Verif.Model.UfoKerning
/-! Model of the contours of `UfoMasterGlyph` (ufo/paths.py).  Log messages are not modelled. -/
set_option autoImplicit false
namespace Verif

/-- one point of an `UfoContour`: segment type (`None` for an off-curve point), smooth, name, coordinates
— ufo/typing.py:20 -/
structure UfoPoint where
  seg : Option PathCommand
  smooth : Bool
  name : Option PyStr
  pt : Point
  deriving DecidableEq, Repr

/-- `UfoContour` — ufo/typing.py:20 -/
abbrev UfoContour := List UfoPoint

/-- `flags & 1` — ufo/paths.py:150 -/
def flagSmooth (flags : Int) : Bool := flags % 2 = 1
/-- `flags & 8` — ufo/paths.py:155 -/
def flagOpen (flags : Int) : Bool := flags / 8 % 2 = 1

/-- `UfoMasterGlyph._apply_closepath(contour)` — ufo/paths.py:329-356, with `to_mask` false, as it is always called
(`_append_contour` does not pass it on): the contour and the entry for `rename_points`, if any.  `contour[0] =
contour.pop()` raises IndexError if there is just one point. -/
def applyClosepath (contour : UfoContour) : Except PyErr (UfoContour × Option (PyStr × PyStr)) :=
  match contour, contour.getLast? with
  | first :: rest, some last =>
    if last.pt = first.pt ∧ last.seg ≠ some .line ∧ last.seg ≠ some .qcurve then
      match rest with
      | [] => .error .index
      | _ :: _ =>
        match first.name with
        | none => .ok (last :: rest.dropLast, none)
        | some name =>
          match last.name with
          | none => .ok ({ last with name := some name } :: rest.dropLast, none)
          | some new => .ok (last :: rest.dropLast, some (name, new))
    else .ok ({ first with seg := some .line } :: rest, none)
  | _, _ => .error .index

/-- `UfoMasterGlyph._flush_contour(contour, path_is_open)` — ufo/paths.py:358-372 -/
def flushContour (contour : UfoContour) (isOpen : Bool) : Except PyErr (UfoContour × Option (PyStr × PyStr)) :=
  if isOpen then .ok (contour, none)
  else
    match contour, contour.getLast? with
    | first :: rest, some last =>
      match last.seg with
      | some .line => applyClosepath contour
      | some .curve => applyClosepath contour
      | some .qcurve => applyClosepath contour
      | none => .ok ({ first with seg := some .qcurve } :: rest, none)
      | some .move => .ok (contour, none)
    | _, _ => .error .index

/-- the variables of `_extract_master_contours`: the finished contours, `rename_points`, `contour`, `path_is_open`
and `in_qcurve` — ufo/paths.py:119-184 -/
structure ContourState where
  contours : List UfoContour
  rename : List (PyStr × PyStr)
  contour : UfoContour
  isOpen : Bool
  inQcurve : Bool
  deriving DecidableEq, Repr

/-- the entry for `rename_points` added to the dictionary — ufo/paths.py:352 -/
def addRename (rename : List (PyStr × PyStr)) : Option (PyStr × PyStr) → List (PyStr × PyStr)
  | none => rename
  | some e => dictSet rename e.1 e.2

/-- `UfoMasterGlyph._append_contour(contour, path_is_open)` — ufo/paths.py:316-327 -/
def appendContour (st : ContourState) : Except PyErr ContourState :=
  if st.contour.isEmpty then .ok st
  else
    flushContour st.contour st.isOpen >>= fun r =>
    .ok { st with
      contours := st.contours ++ [r.1]
      rename := addRename st.rename r.2 }

/-- the body of the loop over the nodes — ufo/paths.py:141-178.  An unknown segment type (ValueError) does not
exist in the model. -/
def contourStep (labels : List (Int × PyStr)) (master : Nat) (toMask : Bool) (st : ContourState) (i : Nat) (n : MMNode) :
    Except PyErr ContourState :=
  let name := if toMask then none else dictGet labels (i : Int)
  pyIndex n.points master >>= fun nodes =>
  pyIndex nodes 0 >>= fun pt =>
  match n.flags with
  | none => .error .key
  | some flags =>
    let smooth := flagSmooth flags
    match n.type with
    | .move =>
      appendContour st >>= fun st =>
      .ok { st with
        contour := [⟨some .move, smooth, name, pt⟩]
        isOpen := flagOpen flags
        inQcurve := false }
    | .line =>
      .ok { st with
        contour := st.contour ++ [⟨some (if st.inQcurve then .qcurve else .line), smooth, name, pt⟩]
        inQcurve := false }
    | .curve =>
      match nodes with
      | [pt, c1, c2] =>
        .ok { st with
          contour := st.contour ++ [⟨none, false, none, c1⟩, ⟨none, false, none, c2⟩, ⟨some .curve, smooth, name, pt⟩]
          inQcurve := false }
      | _ => .error .value
    | .qcurve =>
      .ok { st with
        contour := st.contour ++ [⟨none, false, name, pt⟩]
        inQcurve := true }

/-- the loop over the nodes with their numbers — ufo/paths.py:119-184 -/
def contourLoop (labels : List (Int × PyStr)) (master : Nat) (toMask : Bool) :
    ContourState → Nat → List MMNode → Except PyErr ContourState
  | st, _, [] => .ok st
  | st, i, n :: ns => contourStep labels master toMask st i n >>= fun st => contourLoop labels master toMask st (i + 1) ns

/-- `UfoMasterGlyph._extract_master_contours(to_mask)` — ufo/paths.py:119-184: the contours and `rename_points`.
`labels` is `mm_glyph.point_labels`. -/
def extractContours (nodes : List MMNode) (labels : List (Int × PyStr)) (master : Nat) (toMask : Bool) :
    Except PyErr (List UfoContour × List (PyStr × PyStr)) :=
  contourLoop labels master toMask ⟨[], [], [], false, false⟩ 0 nodes >>= fun st =>
  appendContour st >>= fun st =>
  .ok (st.contours, st.rename)

/-- a TrueType command of the UFO: a dictionary from strings to strings (numbers and booleans, which occur for other
keys than the ones used here, are represented by the text of them) — ufo/tth.py:113-188 -/
abbrev TthCommand := List (PyStr × PyStr)

/-- `UfoMasterGlyph._rename_point_in_cmd(cmd, key)` — ufo/paths.py:308-314 -/
def renamePointInCmd (rename : List (PyStr × PyStr)) (cmd : TthCommand) (key : PyStr) : Except PyErr TthCommand :=
  match dictGet cmd key with
  | none => .error .key
  | some name =>
    match dictGet rename name with
    | none => .ok cmd
    | some new => .ok (dictSet cmd key new)

/-- the keys of a command that hold points — ufo/paths.py:286-306 -/
def pointKeys (code : PyStr) : Except PyErr (List PyStr) :=
  if code ∈ [lit "alignb", lit "alignt", lit "alignh", lit "alignv", lit "mdeltah", lit "mdeltav", lit "fdeltah", lit "fdeltav"] then
    .ok [lit "point"]
  else if code ∈ [lit "singleh", lit "singlev", lit "doubleh", lit "doublev"] then .ok [lit "point1", lit "point2"]
  else if code ∈ [lit "interpolateh", lit "interpolatev"] then .ok [lit "point", lit "point1", lit "point2"]
  else .error .value

/-- `UfoMasterGlyph._finalize_tt_point_labels()` — ufo/paths.py:277-306 -/
def finalizeTtPointLabels (rename : List (PyStr × PyStr)) (cmds : List TthCommand) : Except PyErr (List TthCommand) :=
  if rename.isEmpty then .ok cmds
  else cmds.mapM fun cmd =>
    match dictGet cmd (lit "code") with
    | none => .error .key
    | some code => pointKeys code >>= fun keys => keys.foldlM (renamePointInCmd rename) cmd

end Verif

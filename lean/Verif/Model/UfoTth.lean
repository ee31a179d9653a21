import Verif.Model.Glyph
import Verif.Model.UfoPaths
import Verif.Model.UfoLabels
/-! Model of `ufo/tth.py`: TrueType commands of the UFO, and of what `UfoMasterGlyph.build` (ufo/paths.py) does with them. -/
set_option autoImplicit false
namespace Verif

/-- `vfb2ufo_command_codes` — ufo/vfb2ufo.py:41-56 -/
def commandCodes : List (PyStr × PyStr) :=
  [(lit "AlignBottom", lit "alignb"), (lit "AlignTop", lit "alignt"),
   (lit "SingleLinkH", lit "singleh"), (lit "SingleLinkV", lit "singlev"),
   (lit "DoubleLinkH", lit "doubleh"), (lit "DoubleLinkV", lit "doublev"),
   (lit "AlignH", lit "alignh"), (lit "AlignV", lit "alignv"),
   (lit "InterpolateH", lit "interpolateh"), (lit "InterpolateV", lit "interpolatev"),
   (lit "MDeltaH", lit "mdeltah"), (lit "MDeltaV", lit "mdeltav"),
   (lit "FDeltaH", lit "fdeltah"), (lit "FDeltaV", lit "fdeltav")]

/-- `vfb2ufo_alignment_rev` — ufo/vfb2ufo.py:32-39 -/
def alignmentRev : List (Int × PyStr) :=
  [(-1, lit "default"), (0, lit "round"), (1, lit "left"), (2, lit "right"), (3, lit "center"), (4, lit "double")]

/-- what a `TTGlyphHints` object knows besides the glyph — ufo/tth.py:98-108: the function `zone_names[side][i]` and
the names of the stems of the directions "ttStemsH" and "ttStemsV" -/
structure TthEnv where
  zone : PyStr → Int → Except PyErr PyStr
  stemsH : List PyStr
  stemsV : List PyStr

/-- `params[key]` — ufo/tth.py:113-188 -/
def tthParam (i : Instruction) (key : PyStr) : Except PyErr Int :=
  match dictGet i.params key with
  | none => .error .key
  | some v => .ok v

/-- the parameter "align" — ufo/tth.py:127-130, 159-162, 170-173 -/
def tthAlign (i : Instruction) (d : TthCommand) : TthCommand :=
  match dictGet i.params (lit "align") with
  | none => d
  | some align => if align > -1 then dictSet d (lit "align") ((dictGet alignmentRev align).getD (lit "round")) else d

/-- the parameter "stem" — ufo/tth.py:139-158; `True` is represented by its text -/
def tthStem (names : List PyStr) (i : Instruction) (d : TthCommand) : Except PyErr TthCommand :=
  match dictGet i.params (lit "stem") with
  | none => .ok d
  | some stem =>
    if stem ≤ -2 then .ok (dictSet d (lit "round") (lit "True"))
    else if stem = -1 then .ok d
    else
      pyIndex names (if stem ≥ names.length then 0 else stem) >>= fun name =>
      .ok (dictSet d (lit "stem") name)

/-- a function that makes labels: `glyph.get_point_label(index, code)`, with a state
— ufo/tth.py:113-188 -/
abbrev Labeler (S : Type) := S → Int → PyStr → Except PyErr (PyStr × S)

/-- `d[key] = self.glyph.get_point_label(params[param], code)` — ufo/tth.py:113-188 -/
def tthPoint {S : Type} (label : Labeler S) (i : Instruction) (key param : PyStr) (r : TthCommand × S) : Except PyErr (TthCommand × S) :=
  tthParam i param >>= fun p =>
  label r.2 p i.cmd >>= fun l =>
  .ok (dictSet r.1 key l.1, l.2)

/-- one command — ufo/tth.py:113-188.  Numbers (delta, ppm1, ppm2) are represented by their text. -/
def tthCommand {S : Type} (label : Labeler S) (env : TthEnv) (s : S) (i : Instruction) : Except PyErr (TthCommand × S) :=
  match dictGet commandCodes i.cmd with
  | none => .error .key
  | some code =>
    let d : TthCommand := [(lit "code", code)]
    if i.cmd = lit "AlignBottom" ∨ i.cmd = lit "AlignTop" then
      tthPoint label i (lit "point") (lit "pt") (d, s) >>= fun r =>
      tthParam i (lit "zone") >>= fun z =>
      env.zone (if i.cmd = lit "AlignBottom" then lit "ttZonesB" else lit "ttZonesT") z >>= fun name =>
      .ok (dictSet r.1 (lit "zone") name, r.2)
    else if i.cmd = lit "AlignH" ∨ i.cmd = lit "AlignV" then
      tthPoint label i (lit "point") (lit "pt") (d, s) >>= fun r =>
      .ok (tthAlign i r.1, r.2)
    else if i.cmd = lit "SingleLinkH" ∨ i.cmd = lit "SingleLinkV" ∨ i.cmd = lit "DoubleLinkH" ∨ i.cmd = lit "DoubleLinkV" then
      tthPoint label i (lit "point1") (lit "pt1") (d, s) >>= fun r =>
      tthPoint label i (lit "point2") (lit "pt2") r >>= fun r =>
      tthStem (if i.cmd.getLast? = some 72 then env.stemsH else env.stemsV) i r.1 >>= fun d =>
      .ok (tthAlign i d, r.2)
    else if i.cmd = lit "InterpolateH" ∨ i.cmd = lit "InterpolateV" then
      tthPoint label i (lit "point") (lit "pti") (d, s) >>= fun r =>
      tthPoint label i (lit "point1") (lit "pt1") r >>= fun r =>
      tthPoint label i (lit "point2") (lit "pt2") r >>= fun r =>
      .ok (tthAlign i r.1, r.2)
    else if i.cmd = lit "MDeltaH" ∨ i.cmd = lit "MDeltaV" ∨ i.cmd = lit "FDeltaH" ∨ i.cmd = lit "FDeltaV" then
      tthPoint label i (lit "point") (lit "pt") (d, s) >>= fun r =>
      tthParam i (lit "shift") >>= fun delta =>
      tthParam i (lit "ppm1") >>= fun ppm1 =>
      tthParam i (lit "ppm2") >>= fun ppm2 =>
      .ok (dictSet (dictSet (dictSet r.1 (lit "delta") (intDec delta)) (lit "ppm1") (intDec ppm1)) (lit "ppm2") (intDec ppm2), r.2)
    else .error .value

/-- `TTGlyphHints.get_tt_glyph_hints()` — ufo/tth.py:110-189 -/
def tthCommands {S : Type} (label : Labeler S) (env : TthEnv) : S → List Instruction → Except PyErr (List TthCommand × S)
  | s, [] => .ok ([], s)
  | s, i :: is =>
    tthCommand label env s i >>= fun r =>
    tthCommands label env r.2 is >>= fun rs =>
    .ok (r.1 :: rs.1, rs.2)

/-- `VfbToUfoGlyph.get_point_label` as a labeler: the default `start_count` is 1 — ufo/glyph.py:49 -/
def glyphLabeler (depth : Nat) (name : PyStr) : Labeler LabelFont := fun f p code => getPointLabel depth f name p code 1

/-- `IndexVfbToUfoGlyph.get_point_label(index, code)` — ufo/glyph.py:152-159: the index (an int, represented by its text) -/
def indexLabeler : Labeler Unit := fun s p _ => .ok (intDec p, s)

/-- `zone_names[side][i]` for the lists of names made by the builder — ufo/builder.py:334-352: KeyError while there are
no zones, IndexError for a number out of range, negative numbers count from the end -/
def listZone (zoneNames : List (PyStr × List PyStr)) (side : PyStr) (i : Int) : Except PyErr PyStr :=
  match dictGet zoneNames side with
  | none => .error .key
  | some l => pyIndex l i

/-! ### XML -/

/-- `html.escape(s)` (quote=True): the replacements one after the other amount to this map, because "&" is replaced
first — ufo/tth.py:37-62 -/
def htmlEscape (s : PyStr) : PyStr := s.flatMap fun c =>
  if c = 38 then lit "&amp;" else if c = 60 then lit "&lt;" else if c = 62 then lit "&gt;"
  else if c = 34 then lit "&quot;" else if c = 39 then lit "&#x27;" else [c]

/-- `str.lower()`, for ASCII (the values are "True" and "False") — ufo/tth.py:37-62 -/
def asciiLower (s : PyStr) : PyStr := s.map fun c => if 65 ≤ c ∧ c ≤ 90 then c + 32 else c

/-- the attributes in the order they are written — ufo/tth.py:43-54 -/
def ttcAttrs : List PyStr :=
  [lit "point", lit "point1", lit "point2", lit "round", lit "stem", lit "zone", lit "align", lit "delta", lit "ppm1", lit "ppm2"]

/-- `tt_cmd_dict_to_xml(tt_dict)` — ufo/tth.py:37-62 -/
def ttCmdXml (d : TthCommand) : Except PyErr PyStr :=
  match dictGet d (lit "code") with
  | none => .error .key
  | some code =>
    .ok (lit "    <ttc code=\"" ++ code ++ lit "\"" ++ (ttcAttrs.flatMap fun attr =>
      match dictGet d attr with
      | none => []
      | some val => lit " " ++ attr ++ lit "=\"" ++ htmlEscape (if attr = lit "round" then asciiLower val else val) ++ lit "\"") ++
      lit "/>")

/-- `sep.join(l)` — ufo/tth.py:26-34 -/
def joinWith (sep : PyStr) : List PyStr → PyStr
  | [] => []
  | [x] => x
  | x :: l => x ++ sep ++ joinWith sep l

/-- `set_tth_lib(glyph, commands)` — ufo/tth.py:26-34: the text for the lib, if there are commands -/
def tthLib (cmds : List TthCommand) : Except PyErr (Option PyStr) :=
  cmds.mapM ttCmdXml >>= fun tth =>
  .ok (if tth.isEmpty then none else some (lit "  <ttProgram>\n" ++ joinWith (lit "\n") tth ++ lit "\n  </ttProgram>\n"))

/-- the result of `UfoMasterGlyph.build` as far as TrueType commands and contours are concerned
— ufo/paths.py:67-90 -/
structure MasterTth where
  lib : Option PyStr
  contours : List UfoContour
  commands : List TthCommand
  deriving DecidableEq, Repr

/-- `UfoMasterGlyph.build` — ufo/paths.py:67-90, for TrueType commands and contours: the text for the lib is made from the
commands (line 79), then the contours (line 83), then the commands are renamed (line 84) -/
def masterTth (nodes : List MMNode) (labels : List (Int × PyStr)) (master : Nat) (cmds : List TthCommand) : Except PyErr MasterTth :=
  tthLib cmds >>= fun lib =>
  extractContours nodes labels master false >>= fun r =>
  finalizeTtPointLabels r.2 cmds >>= fun cmds' =>
  .ok ⟨lib, r.1, cmds'⟩

end Verif

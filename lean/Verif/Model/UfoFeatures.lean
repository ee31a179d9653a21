import Verif.Model.UfoMasters
import Verif.Model.UfoKerning
/-! Model of classes and feature code in `ufo/builder.py`, and of `ufo/features.py`.  Log messages are not modelled. -/
set_option autoImplicit false
namespace Verif

/-! ### feature code -/

/-- The groups of the regular expression in `rename_kern_classes_in_feature_code` — ufo/features.py:17-18 -/
structure PosRule where
  indent : PyStr
  enum : PyStr
  left : PyStr
  right : PyStr
  value : PyStr
  deriving DecidableEq, Repr

/-- `[\S]+`: the text up to the next white space, and the rest; `none` if there is none
— ufo/features.py:17 -/
def nonSpaces (s : PyStr) : Option (PyStr × PyStr) :=
  if (s.takeWhile fun c => !isSpace c).isEmpty then none
  else some (s.takeWhile (fun c => !isSpace c), s.dropWhile fun c => !isSpace c)

/-- ` +`: the rest after one or more spaces; `none` if there is none — ufo/features.py:17 -/
def spaces (s : PyStr) : Option PyStr :=
  match s with
  | 32 :: _ => some (s.dropWhile (· == 32))
  | _ => none

/-- a literal text — ufo/features.py:17 -/
def literal (p s : PyStr) : Option PyStr := if p.isPrefixOf s then some (s.drop p.length) else none

/-- `[\S]+.*$`: the text, without the line feed that may end it; `none` if there is another line feed.  (`$` matches at the end and before
a line feed at the end, `.` does not match a line feed.) — ufo/features.py:17 -/
def ruleValue (s : PyStr) : Option PyStr :=
  match s with
  | [] => none
  | c :: _ =>
    if isSpace c then none
    else if (s.dropWhile fun c => !(c == 10)).length ≤ 1 then some (s.takeWhile fun c => !(c == 10)) else none

/-- `search(r"^([\t\s]*)(enum )?(pos) +([\S]+) ([\S]+) +([\S]+.*)$", code)` — ufo/features.py:17.  The expression leaves no choice:
after the white space an `e` or a `p` must follow, after the spaces a character that is no white space, and so on. -/
def matchPos (code : PyStr) : Option PosRule :=
  let rest := code.dropWhile isSpace
  let enum := if (lit "enum ").isPrefixOf rest then lit "enum " else []
  (literal (lit "pos") (rest.drop enum.length)).bind fun s =>
  (spaces s).bind fun s =>
  (nonSpaces s).bind fun l =>
  (literal (lit " ") l.2).bind fun s =>
  (nonSpaces s).bind fun r =>
  (spaces r.2).bind fun s =>
  (ruleValue s).map fun v => ⟨code.takeWhile isSpace, enum, l.1, r.1, v⟩

/-- `f"@public.kern{side}.{L[1:]}"` if `L.startswith("@_")` — ufo/features.py:19-22 -/
def renameClass (side : Nat) (s : PyStr) : PyStr :=
  if startsWith s (lit "@_") then lit "@public.kern" ++ natDec side ++ lit "." ++ s.drop 1 else s

/-- `line.split("#", 1)` — ufo/features.py:11-15; `none`: there is no comment -/
def splitComment (line : PyStr) : PyStr × Option PyStr :=
  if line.contains 35 then (line.takeWhile (fun c => !(c == 35)), some ((line.dropWhile fun c => !(c == 35)).drop 1)) else (line, none)

/-- one line — ufo/features.py:11-30 -/
def renameLine (line : PyStr) : PyStr :=
  match matchPos (splitComment line).1 with
  | none => line
  | some m =>
    m.indent ++ m.enum ++ lit "pos" ++ lit " " ++ renameClass 1 m.left ++ lit " " ++ renameClass 2 m.right ++ lit " " ++ m.value ++
      match (splitComment line).2 with
      | some [] => []
      | some c => lit "#" ++ c
      | none => []

/-- `rename_kern_classes_in_feature_code(data)` — ufo/features.py:4-32 -/
def renameKernClasses (data : List PyStr) : List PyStr := data.map renameLine

/-- `sep.join(l)` — ufo/builder.py:560-563 -/
def joinText (sep : PyStr) : List PyStr → PyStr
  | [] => []
  | [x] => x
  | x :: y :: l => x ++ sep ++ joinText sep (y :: l)

/-! ### classes -/

/-- `s.split(c)` for one character — ufo/builder.py:152-162 -/
def splitChar (c : Nat) : PyStr → List PyStr
  | [] => [[]]
  | x :: s =>
    if x = c then [] :: splitChar c s
    else match splitChar c s with
      | [] => [[x]]
      | w :: ws => (x :: w) :: ws

/-- `add_ot_class`: the name and the glyphs of a class — ufo/builder.py:152-162; `none`: skipped -/
def parseClass (data : PyStr) : Except PyErr (Option (PyStr × List PyStr)) :=
  if data.contains 58 then
    match splitChar 58 data with
    | [name, contents] => .ok (some (name, ((splitChar 32 contents).map pyStrip).filter fun g => !g.isEmpty))
    | _ => .error .value                                      -- too many values to unpack
  else .ok none

/-- `add_ot_class` — ufo/builder.py:144-168 -/
def addClass (groups : Groups) (data : PyStr) : Except PyErr Groups :=
  parseClass data >>= fun c =>
  match c with
  | none => .ok groups
  | some c => if (dictGet groups c.1).isSome then .ok groups else .ok (dictSet groups c.1 c.2)

/-- The attributes of the builder for classes and feature code — ufo/builder.py:89-94 -/
structure FeaturesPart where
  code : PyStr
  groups : Groups
  flags : List (PyStr × Int)
  deriving DecidableEq, Repr

section
variable (ops : AngleOps) (asm : AsmOps)

/-- an entry for classes or feature code — ufo/builder.py:560-563, 634-635; other entries change nothing here.  Only the first number of
the class flags is used. -/
def featureEntry (st : FeaturesPart) (id : Int) (d : Decompiled ops.Angle asm.Asm) : Except PyErr FeaturesPart :=
  if id = 1276 then
    match d with
    | .lines l => .ok { st with code := joinText (lit "\n") (renameKernClasses l) }     -- features
    | _ => .error .type
  else if id = 1277 then
    match d with
    | .str s => addClass st.groups s >>= fun groups => .ok { st with groups := groups } -- GlyphClass
    | _ => .error .type
  else if id = 2026 then
    match d with
    | .kerningFlags l => .ok { st with flags := l.map fun e => (e.1, e.2.1) }           -- KerningClassFlags
    | _ => .error .type
  else .ok st

/-- an entry of the file: skipped ids, entries without data — ufo/builder.py:432-450 -/
def featureStep (o : BuildOpts) (st : FeaturesPart) (e : Int × Option (Decompiled ops.Angle asm.Asm)) : Except PyErr FeaturesPart :=
  if e.1 ∈ skipKeys o then .ok st
  else match e.2 with
    | none => .ok st
    | some d => featureEntry ops asm st e.1 d

/-- classes and feature code after `build()` — ufo/builder.py:416-679 -/
def buildFeatures (o : BuildOpts) (es : List (Int × Option (Decompiled ops.Angle asm.Asm))) : Except PyErr FeaturesPart :=
  es.foldlM (featureStep ops asm o) ⟨[], [], []⟩

end

/-! ### the data shared by all masters -/

/-- the options for classes — ufo/builder.py:61-62 -/
structure FeaOpts where
  addKerning : Bool
  moveGroups : Bool
  deriving DecidableEq, Repr

/-- the three conditions of the loop — ufo/builder.py:849-858 -/
def toFeatures (o : FeaOpts) (name : PyStr) : Bool :=
  if startsWith name (lit "public.kern") && !o.addKerning then false
  else if startsWith name (lit ".") then false
  else if !startsWith name (lit "public.kern") && !o.moveGroups then false
  else true

/-- `f"@{name} = [{' '.join(glyphs)}];\n"` — ufo/builder.py:860 -/
def classLine (group : PyStr × List PyStr) : PyStr := lit "@" ++ group.1 ++ lit " = [" ++ joinText (lit " ") group.2 ++ lit "];\n"

/-- what `get_ufo_masters` prepares for all masters: the kerning, the groups, the feature code, "public.groupOrder" and the key glyphs
in the lib — ufo/builder.py:825-872 -/
structure SharedData where
  kerning : UfoKerning
  groups : Groups
  text : PyStr
  groupOrder : List PyStr
  keyGlyphs : List (PyStr × PyStr)
  deriving DecidableEq, Repr

/-- `get_ufo_masters` up to the masters — ufo/builder.py:825-872 -/
def sharedData (o : FeaOpts) (minimal : Bool) (p : FeaturesPart) (order : List PyStr) (kerning : MMKerning) : Except PyErr SharedData :=
  let t := transformGroups p.groups p.flags order minimal
  ufoKerning order t.groups kerning t.keys >>= fun k =>
  let moved := (t.groups.filter fun g => toFeatures o g.1).map Prod.fst
  .ok
    { kerning := k
      groups := if o.moveGroups then k.groups.filter fun g => !moved.contains g.1 else k.groups
      text := (t.groups.filter fun g => toFeatures o g.1).flatMap classLine ++ if p.code.isEmpty then [] else lit "\n\n" ++ p.code
      groupOrder := t.order
      keyGlyphs := t.keys }

end Verif

import Verif.Model.UfoTth
import Verif.Spec.UfoHints
import Verif.Spec.UfoPaths
/-! Vocabulary for the statements about TrueType commands in the UFO. -/
set_option autoImplicit false
namespace Verif.Spec
open Verif

/-- the kinds of commands -/
inductive TthKind where
  /-- align a point to a zone; `bottom` or top -/
  | zone (bottom : Bool)
  | align
  /-- single and double links; `horizontal` or vertical -/
  | link (horizontal : Bool)
  | interpolate
  | delta
  deriving DecidableEq, Repr

/-- the names of the commands in the VFB and in the UFO -/
def tthTable : List (PyStr × PyStr × TthKind) :=
  [(lit "AlignBottom", lit "alignb", .zone true), (lit "AlignTop", lit "alignt", .zone false),
   (lit "SingleLinkH", lit "singleh", .link true), (lit "SingleLinkV", lit "singlev", .link false),
   (lit "DoubleLinkH", lit "doubleh", .link true), (lit "DoubleLinkV", lit "doublev", .link false),
   (lit "AlignH", lit "alignh", .align), (lit "AlignV", lit "alignv", .align),
   (lit "InterpolateH", lit "interpolateh", .interpolate), (lit "InterpolateV", lit "interpolatev", .interpolate),
   (lit "MDeltaH", lit "mdeltah", .delta), (lit "MDeltaV", lit "mdeltav", .delta),
   (lit "FDeltaH", lit "fdeltah", .delta), (lit "FDeltaV", lit "fdeltav", .delta)]

/-- the points of a command: key in the UFO and parameter in the VFB -/
def tthPoints : TthKind → List (PyStr × PyStr)
  | .link _ => [(lit "point1", lit "pt1"), (lit "point2", lit "pt2")]
  | .interpolate => [(lit "point", lit "pti"), (lit "point1", lit "pt1"), (lit "point2", lit "pt2")]
  | _ => [(lit "point", lit "pt")]

/-- the names of alignments -/
def alignName (a : Int) : PyStr :=
  if a = 1 then lit "left" else if a = 2 then lit "right" else if a = 3 then lit "center" else if a = 4 then lit "double"
  else lit "round"

/-- a negative alignment means none -/
def alignPart (params : List (PyStr × Int)) : List (PyStr × PyStr) :=
  match dictGet params (lit "align") with
  | none => []
  | some a => if a < 0 then [] else [(lit "align", alignName a)]

/-- the stem number: -2 and below mean rounding, -1 none; a number that is too large means the first stem -/
def StemPart (stems : List PyStr) (params : List (PyStr × Int)) (out : List (PyStr × PyStr)) : Prop :=
  (dictGet params (lit "stem") = none ∧ out = []) ∨
  ∃ s, dictGet params (lit "stem") = some s ∧
    ((s = -1 ∧ out = []) ∨ (s ≤ -2 ∧ out = [(lit "round", lit "True")]) ∨
      ∃ k : Nat, s = k ∧ ∃ x, stems[if k < stems.length then k else 0]? = some x ∧ out = [(lit "stem", x)])

/-- what a command has besides its code and points -/
def TthRest (env : TthEnv) (params : List (PyStr × Int)) : TthKind → List (PyStr × PyStr) → Prop
  | .zone bottom, out => ∃ z x, dictGet params (lit "zone") = some z ∧
      env.zone (if bottom then lit "ttZonesB" else lit "ttZonesT") z = .ok x ∧ out = [(lit "zone", x)]
  | .align, out => out = alignPart params
  | .interpolate, out => out = alignPart params
  | .link horizontal, out => ∃ a, StemPart (if horizontal then env.stemsH else env.stemsV) params a ∧ out = a ++ alignPart params
  | .delta, out => ∃ s a b, dictGet params (lit "shift") = some s ∧ dictGet params (lit "ppm1") = some a ∧
      dictGet params (lit "ppm2") = some b ∧ out = [(lit "delta", intDec s), (lit "ppm1", intDec a), (lit "ppm2", intDec b)]

/-- `cmd` is the UFO command for the instruction `i`, where `named p l` says that the point `p` is called `l` -/
def Translated (named : Int → PyStr → Prop) (env : TthEnv) (i : Instruction) (cmd : TthCommand) : Prop :=
  ∃ code kind pts rest, (i.cmd, code, kind) ∈ tthTable ∧
    Corresponds (fun x y => y.1 = x.1 ∧ ∃ p, dictGet i.params x.2 = some p ∧ named p y.2) (tthPoints kind) pts ∧
    TthRest env i.params kind rest ∧ cmd = (lit "code", code) :: pts ++ rest

/-- whatever the code, asking for the label of the point `p` of the glyph `name` gives `l` (and changes nothing) -/
def Called (depth : Nat) (f : LabelFont) (name : PyStr) (p : Int) (l : PyStr) : Prop :=
  ∀ code start, getPointLabel depth f name p code start = .ok (l, f)

/-- the instruction has all its parameters, and the zone and stem exist -/
def Complete (env : TthEnv) (i : Instruction) : Prop :=
  ∃ code kind rest, (i.cmd, code, kind) ∈ tthTable ∧ (∀ x ∈ tthPoints kind, ∃ p, dictGet i.params x.2 = some p) ∧
    TthRest env i.params kind rest

end Verif.Spec

namespace Verif.Spec
open Verif

/-! ### Reading the XML of the lib -/

/-- the text up to the first `c`, and the text after it -/
def readUntil (c : Nat) : PyStr → Option (PyStr × PyStr)
  | [] => none
  | x :: s => if x = c then some ([], s) else (readUntil c s).map fun r => (x :: r.1, r.2)

/-- the characters that the entities stand for -/
def xmlEntities : List (PyStr × PyStr) :=
  [(lit "amp", lit "&"), (lit "lt", lit "<"), (lit "gt", lit ">"), (lit "quot", lit "\""), (lit "#x27", lit "'")]

/-- the text with the entities replaced; the first argument holds the part of an entity that has been read -/
def unescape : Option PyStr → PyStr → PyStr
  | _, [] => []
  | none, c :: s => if c = 38 then unescape (some []) s else c :: unescape none s
  | some e, c :: s => if c = 59 then (dictGet xmlEntities e).getD [] ++ unescape none s else unescape (some (e ++ [c])) s

/-- the attributes up to the end `/>` of the element, and the text after it; every step reads one attribute -/
def readAttrs : Nat → PyStr → Option (List (PyStr × PyStr) × PyStr)
  | n + 1, c :: s =>
    if c = 32 then do
      let name ← readUntil 61 s
      match name.2 with
      | [] => none
      | quote :: s =>
        if quote = 34 then do
          let value ← readUntil 34 s
          let rest ← readAttrs n value.2
          some ((name.1, unescape none value.1) :: rest.1, rest.2)
        else none
    else if c = 47 ∧ s.head? = some 62 then some ([], s.tail)
    else none
  | _, _ => none

/-- the text after the beginning `p` -/
def dropPrefix (p s : PyStr) : Option PyStr := if p.isPrefixOf s then some (s.drop p.length) else none

def skipSpace (s : PyStr) : PyStr := s.dropWhile fun c => c = 32 || c = 10

/-- the elements `<ttc …/>` up to `</ttProgram>` -/
def readCommands : Nat → PyStr → Option (List (List (PyStr × PyStr)))
  | 0, _ => none
  | n + 1, s =>
    match dropPrefix (lit "</ttProgram>") (skipSpace s) with
    | some rest => if skipSpace rest = [] then some [] else none
    | none => do
      let s1 ← dropPrefix (lit "<ttc") (skipSpace s)
      let r ← readAttrs s1.length s1
      let rs ← readCommands n r.2
      some (r.1 :: rs)

/-- the attributes of all commands of a program -/
def readProgram (s : PyStr) : Option (List (List (PyStr × PyStr))) := do
  let s1 ← dropPrefix (lit "<ttProgram>") (skipSpace s)
  readCommands s1.length s1

/-- XML attributes with the same content as the command; "True" is written "true" -/
def SameContent (cmd : TthCommand) (attrs : List (PyStr × PyStr)) : Prop :=
  ∀ key, dictGet attrs key = if key = lit "round" then (dictGet cmd key).map fun _ => lit "true" else dictGet cmd key

end Verif.Spec

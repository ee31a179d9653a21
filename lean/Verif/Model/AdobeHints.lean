import Verif.Model.UfoHints
import Verif.Model.UfoMasters
import Verif.Model.UfoFeatures
/-! Model of `update_adobe_hinting` (ufo/pshints.py): the conversion of hints of format 1 (XML) to format 2.
The XML parser (`xml.etree.ElementTree.fromstring`) and `bytes.decode` are parameters. -/
set_option autoImplicit false
namespace Verif

/-- an element of an XML tree (comments and processing instructions are dropped by the parser; the text of elements is
not looked at) — ufo/pshints.py:293-311 -/
inductive Xml where
  | el (tag : PyStr) (attrs : List (PyStr × PyStr)) (children : List Xml)

/-- `el.tag` — ufo/pshints.py:297 -/
def Xml.tag : Xml → PyStr
  | .el t _ _ => t

/-- `el.attrib` — ufo/pshints.py:303 -/
def Xml.attrs : Xml → List (PyStr × PyStr)
  | .el _ a _ => a

mutual
/-- `root.iter()`: the element, then the elements in its children, in document order — ufo/pshints.py:296 -/
def Xml.iter : Xml → List Xml
  | .el t a cs => .el t a cs :: Xml.iterAll cs
/-- the same for a list of elements — ufo/pshints.py:296 -/
def Xml.iterAll : List Xml → List Xml
  | [] => []
  | c :: cs => c.iter ++ Xml.iterAll cs
end

/-- the value of decimal digits — ufo/pshints.py:309 -/
def digitsVal (s : PyStr) : Nat := s.foldl (fun n c => 10 * n + (c - 48)) 0

/-- `int(s)` for the digits and underscores after the sign — ufo/pshints.py:309: there must be a digit before and after
every underscore -/
def digitGroups (s : PyStr) : Except PyErr Nat :=
  let gs := splitChar 95 s
  if gs.all (fun g => !g.isEmpty && g.all (fun c => 48 ≤ c && c ≤ 57)) then .ok (digitsVal gs.flatten) else .error .value

/-- `int(s)` — ufo/pshints.py:309.  Simplified: Python also takes the decimal digits of other scripts, and refuses more than
4300 digits. -/
def pyInt (s : PyStr) : Except PyErr Int :=
  match pyStrip s with
  | 43 :: t => do let n ← digitGroups t; pure (n : Int)
  | 45 :: t => do let n ← digitGroups t; pure (-(n : Int))
  | t => do let n ← digitGroups t; pure (n : Int)

/-- `UfoHintSet`: "pointTag" and "stems" — ufo/typing.py:73-75 -/
abbrev HintSetV2 := PyStr × List PyStr

/-- the argument and the result of `update_adobe_hinting`: bytes, text, a dictionary of format 2 (the list under
"hintSetList", which is absent if the list is empty), or anything else — ufo/pshints.py:280-290 -/
inductive AdobeData (α : Type) where
  | bytes (b : Bytes)
  | text (s : PyStr)
  | v2 (sets : List HintSetV2)
  | other (a : α)

/-- how the conversion can fail: an error of the XML parser, or an exception — ufo/pshints.py:280-321 -/
inductive AdobeErr where
  | parse
  | py (e : PyErr)
  deriving DecidableEq, Repr

/-- what the function uses of Python: `bytes.decode()` and `elementTree.fromstring` — ufo/pshints.py:285, 293 -/
structure XmlOps where
  decode : Bytes → Option PyStr
  fromstring : PyStr → Option Xml

/-- `el.attrib[key]` — ufo/pshints.py:303, 309 -/
def Xml.attr (e : Xml) (key : PyStr) : Except PyErr PyStr :=
  match dictGet e.attrs key with
  | some v => .ok v
  | none => .error .key

/-- the variables of the loop: `hintset` and `hintSetList` — ufo/pshints.py:294-295 -/
structure AdobeState where
  cur : Option HintSetV2
  done : List HintSetV2

/-- `if hintset: hintSetList.append(hintset)` — ufo/pshints.py:300-301, 312-313 (the dictionary has two keys, so it is true) -/
def AdobeState.flush (st : AdobeState) : List HintSetV2 :=
  match st.cur with
  | some h => st.done ++ [h]
  | none => st.done

/-- one element — ufo/pshints.py:297-311 -/
def adobeStep (st : AdobeState) (e : Xml) : Except PyErr AdobeState :=
  if e.tag = lit "hintSetList" then .ok { st with done := [] }
  else if e.tag = lit "hintset" then do
    let tag ← e.attr (lit "pointTag")
    pure { cur := some (tag, []), done := st.flush }
  else if e.tag = lit "hstem" ∨ e.tag = lit "vstem" then
    match st.cur with
    | none => .ok st
    | some (tag, stems) => do
      let pos ← e.attr (lit "pos")
      let p ← pyInt pos
      let width ← e.attr (lit "width")
      let w ← pyInt width
      pure { st with cur := some (tag, stems ++ [stemText (normalizeHint (e.tag, p, w))]) }
  else .ok st

/-- `update_adobe_hinting` — ufo/pshints.py:280-321 -/
def updateAdobe {α : Type} (X : XmlOps) (data : AdobeData α) : Except AdobeErr (AdobeData α) :=
  let text (s : PyStr) : Except AdobeErr (AdobeData α) :=
    match X.fromstring s with
    | none => .error .parse
    | some root =>
      match root.iter.foldlM adobeStep { cur := none, done := [] } with
      | .error e => .error (.py e)
      | .ok st => .ok (.v2 st.flush)
  match data with
  | .bytes b =>
    match X.decode b with
    | none => .error (.py .unicode)
    | some s => text s
  | .text s => text s
  | d => .ok d

end Verif

import Verif.Model.AdobeHints
import Verif.Spec.UfoHints
/-! Vocabulary for the statements about the conversion of Adobe hints of format 1. -/
set_option autoImplicit false
namespace Verif.Spec
open Verif

/-- `s` is a decimal number with the value `v`: an optional sign and groups of digits separated by single underscores,
with white space around it -/
def IntText (s : PyStr) (v : Int) : Prop :=
  ∃ (pre : PyStr) (sign : PyStr) (groups : List PyStr) (post : PyStr),
    (∀ c ∈ pre, isSpace c = true) ∧ (∀ c ∈ post, isSpace c = true) ∧
    (sign = [] ∨ sign = lit "+" ∨ sign = lit "-") ∧
    groups ≠ [] ∧ (∀ g ∈ groups, g ≠ [] ∧ ∀ c ∈ g, 48 ≤ c ∧ c ≤ 57) ∧
    s = pre ++ sign ++ (lit "_").intercalate groups ++ post ∧
    v = if sign = lit "-" then -(digitsVal groups.flatten : Int) else (digitsVal groups.flatten : Int)

/-- the elements of some trees in document order: a tree is visited before its children -/
inductive Visits : List Xml → List Xml → Prop
  | nil : Visits [] []
  | cons (t : PyStr) (a : List (PyStr × PyStr)) (cs l rest l' : List Xml) (h : Visits cs l) (h' : Visits rest l') :
      Visits (.el t a cs :: rest) (.el t a cs :: (l ++ l'))

/-- the element is a stem -/
def IsStemTag (e : Xml) : Prop := e.tag = lit "hstem" ∨ e.tag = lit "vstem"

instance (e : Xml) : Decidable (IsStemTag e) := by unfold IsStemTag; infer_instance

/-- the stem has whole numbers `p` as position and `w` as width -/
def StemNumbers (e : Xml) (p w : Int) : Prop :=
  ∃ ps ws, dictGet e.attrs (lit "pos") = some ps ∧ IntText ps p ∧ dictGet e.attrs (lit "width") = some ws ∧ IntText ws w

/-- `text` describes the stem `e`: its tag and its edges; the width is not negative, except for ghost hints, which are kept
as they are -/
def StemText (e : Xml) (text : PyStr) : Prop :=
  ∃ p w p' w', StemNumbers e p w ∧ text = e.tag ++ lit " " ++ intDec p' ++ lit " " ++ intDec w' ∧
    edges p' w' = edges p w ∧ (IsGhost w → p' = p ∧ w' = w) ∧ (¬ IsGhost w → 0 ≤ w')

/-- a hint set: an element "hintset", and the elements up to the next one -/
abbrev Block := Xml × List Xml

/-- `s` is the record of a hint set: its point, and its stems in their order -/
def BlockSet (b : Block) (s : HintSetV2) : Prop :=
  dictGet b.1.attrs (lit "pointTag") = some s.1 ∧ List.Forall₂ StemText (b.2.filter (fun e => decide (IsStemTag e))) s.2

/-- the elements of a document (in document order) are `pre` and then hint sets -/
def Document (root : Xml) (pre : List Xml) (blocks : List Block) : Prop :=
  Visits [root] (pre ++ blocks.flatMap (fun b => b.1 :: b.2)) ∧ (∀ e ∈ pre, e.tag ≠ lit "hintset") ∧
    ∀ b ∈ blocks, b.1.tag = lit "hintset" ∧ ∀ e ∈ b.2, e.tag ≠ lit "hintset"

/-- the document starts a new list of hint sets after the tag of this hint set and before the next one -/
def Resets (b : Block) : Prop := ∃ e ∈ b.2, e.tag = lit "hintSetList"

/-- `n` is the number of hint sets that come before the last hint set that is followed by the start of a new list; 0 if there is none -/
def DropCount (blocks : List Block) (n : Nat) : Prop :=
  (∀ b ∈ blocks.drop (n + 1), ¬ Resets b) ∧ (n = 0 ∨ ∃ b, blocks[n]? = some b ∧ Resets b)

/-- a stem of a document in format 1: vertical or horizontal, position and width -/
def stemEl (st : Bool × Int × Int) : Xml :=
  .el (if st.1 then lit "vstem" else lit "hstem") [(lit "pos", intDec st.2.1), (lit "width", intDec st.2.2)] []

/-- a hint set of a document in format 1: the name of a point, and stems -/
def setEl (h : PyStr × List (Bool × Int × Int)) : Xml := .el (lit "hintset") [(lit "pointTag", h.1)] (h.2.map stemEl)

/-- a document in format 1 -/
def docEl (top listAttrs : List (PyStr × PyStr)) (sets : List (PyStr × List (Bool × Int × Int))) : Xml :=
  .el (lit "hintdata") top [.el (lit "hintSetList") listAttrs (sets.map setEl)]

end Verif.Spec

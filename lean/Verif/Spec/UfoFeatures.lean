import Verif.Model.UfoFeatures
import Verif.Spec.UfoMasters
import Verif.Spec.UfoGroups
/-! Specification vocabulary for C75–C77: classes and feature code. -/
set_option autoImplicit false
namespace Verif.Spec
open Verif

/-! ### classes in the file -/

/-- The class text is `name:contents` with one colon, and the glyphs are the pieces of the contents between spaces, without white space
at their ends; empty pieces do not count. -/
def IsClass (text name : PyStr) (glyphs : List PyStr) : Prop :=
  ∃ (contents : PyStr) (pieces words : List PyStr), text = name ++ lit ":" ++ contents ∧ 58 ∉ name ∧ 58 ∉ contents ∧
    contents = [32].intercalate pieces ∧ (∀ p ∈ pieces, 32 ∉ p) ∧ List.Forall₂ IsStripped pieces words ∧
    glyphs = words.filter fun w => w ≠ []

/-- no class: there is no colon -/
def NoClass (text : PyStr) : Prop := 58 ∉ text

/-- among the class texts, the first one with this name has these glyphs -/
def FirstClass (texts : List PyStr) (name : PyStr) (glyphs : List PyStr) : Prop :=
  ∃ pre text post, texts = pre ++ text :: post ∧ IsClass text name glyphs ∧ ∀ t ∈ pre, ¬ ∃ g, IsClass t name g

/-- the names of all classes, in the order of the file -/
def classNames (texts : List PyStr) : List PyStr := (texts.filter fun t => 58 ∈ t).map fun t => t.takeWhile fun c => c ≠ 58

/-! ### feature code -/

/-- a word: not empty, without white space -/
def IsWord (s : PyStr) : Prop := s ≠ [] ∧ ∀ c ∈ s, isSpace c = false
/-- one or more spaces -/
def IsBlank (s : PyStr) : Prop := s ≠ [] ∧ ∀ c ∈ s, c = 32

/-- The code is a rule `pos left right value`, perhaps with indentation, with `enum`, and with a line feed at the end. -/
def IsPosRule (code indent enum left right value : PyStr) : Prop :=
  ∃ sp1 sp2 nl : PyStr, code = indent ++ (enum ++ (lit "pos" ++ (sp1 ++ (left ++ (lit " " ++ (right ++ (sp2 ++ (value ++ nl)))))))) ∧
    (∀ c ∈ indent, isSpace c = true) ∧ (enum = [] ∨ enum = lit "enum ") ∧ IsBlank sp1 ∧ IsWord left ∧ IsWord right ∧ IsBlank sp2 ∧
    (∃ c, value.head? = some c ∧ isSpace c = false) ∧ 10 ∉ value ∧ (nl = [] ∨ nl = lit "\n")

/-- A reference to a kerning class (`@_name`) becomes a reference to the group of the UFO for this side; other words stay. -/
def RefRenamed (side : Nat) (s t : PyStr) : Prop :=
  (∃ name, s = lit "@_" ++ name ∧ t = (if side = 1 then lit "@public.kern1._" else lit "@public.kern2._") ++ name) ∨
  (¬ lit "@_" <+: s ∧ t = s)

/-- the line consists of code and a comment; the comment includes the number sign (an empty comment counts as no comment) -/
def HasComment (line code comment : PyStr) : Prop :=
  (35 ∉ line ∧ code = line ∧ comment = []) ∨
  (35 ∉ code ∧ line = code ++ lit "#" ∧ comment = []) ∨
  ∃ c, c ≠ [] ∧ 35 ∉ code ∧ line = code ++ lit "#" ++ c ∧ comment = lit "#" ++ c

/-- what becomes of a line of the feature code -/
def LineRenamed (line line' : PyStr) : Prop :=
  ∃ code comment, HasComment line code comment ∧
    ((∃ indent enum left right value left' right', IsPosRule code indent enum left right value ∧ RefRenamed 1 left left' ∧
        RefRenamed 2 right right' ∧
        line' = indent ++ enum ++ lit "pos " ++ left' ++ lit " " ++ right' ++ lit " " ++ value ++ comment) ∨
     ((¬ ∃ indent enum left right value, IsPosRule code indent enum left right value) ∧ line' = line))

/-! ### groups and features of the UFO -/

/-- The groups that are defined in the feature code: kerning groups if the user wants it, other groups if the user wants them moved;
never the classes for metrics, whose names start with a period. -/
def InFeatures (o : FeaOpts) (name : PyStr) : Prop :=
  (KernName name ∧ o.addKerning = true) ∨ (¬ KernName name ∧ ¬ lit "." <+: name ∧ o.moveGroups = true)
instance (o : FeaOpts) (name : PyStr) : Decidable (InFeatures o name) := by unfold InFeatures; infer_instance

/-- a class in feature syntax -/
def classDefinition (name : PyStr) (glyphs : List PyStr) : PyStr :=
  lit "@" ++ name ++ lit " = [" ++ (lit " ").intercalate glyphs ++ lit "];\n"

end Verif.Spec

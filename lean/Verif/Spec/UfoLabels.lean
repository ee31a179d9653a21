import Verif.Model.UfoLabels
/-! Vocabulary for the statements about point labels. -/
set_option autoImplicit false
namespace Verif.Spec
open Verif

/-- no point of any glyph has a label yet -/
def Fresh (f : LabelFont) : Prop :=
  DictOk f.glyphs ∧ ∀ x ∈ f.glyphs, x.2.labels = [] ∧ x.2.pointLabels = []

/-- the history of calls `h` on the font `f` contains the call `c`, which returned `l` -/
def Returned (depth : Nat) (f : LabelFont) (h : List LabelCall) (c : LabelCall) (l : PyStr) : Prop :=
  ∃ i : Nat, h[i]? = some c ∧ (runLabelCalls depth f h).1[i]? = some (Except.ok l)

/-- the placeholder for points that do not exist, also as part of the label of a component -/
def IsInvalid (l : PyStr) : Prop := ∃ r, l = lit "invalid" ++ r

/-- `name` is a glyph with `n` nodes and without components -/
def SimpleGlyph (f : LabelFont) (name : PyStr) (n : Nat) : Prop :=
  ∃ g, (name, g) ∈ f.glyphs ∧ g.gids = [] ∧ g.numNodes = n

/-- `name` is a glyph with components, which are glyphs with nodes only; the list `cs` has their names and
numbers of nodes -/
def SimpleComposite (f : LabelFont) (name : PyStr) (cs : List (PyStr × Nat)) : Prop :=
  cs ≠ [] ∧ (∃ g, (name, g) ∈ f.glyphs ∧ g.gids.map (pyIndex f.order) = cs.map fun c => Except.ok c.1) ∧
    ∀ c ∈ cs, SimpleGlyph f c.1 c.2

end Verif.Spec

import Verif.Spec.UfoConvert
import Verif.Spec.UfoTth
/-! Specification vocabulary for C85: the names of points, and hints that refer to points by their names. -/
set_option autoImplicit false
namespace Verif.Spec
open Verif

section
variable {A ASM : Type}

/-- the node `p` of the composite with the components `cs` is the node `q` of its component number `j`, the glyph `base`: the nodes are numbered
through all components -/
inductive NodeOf (gp : GlyphPart A ASM) : List Component → Int → Nat → PyStr → Int → Prop
  | here {c : Component} {cs : List Component} {base : PyStr} {b : BGlyph A ASM} {p : Int} :
      ElementAt gp.order c.gid base → dictGet gp.masters base = some b → p < b.nodes.length → NodeOf gp (c :: cs) p 0 base p
  | there {c : Component} {cs : List Component} {base base' : PyStr} {b : BGlyph A ASM} {p q : Int} {j : Nat} :
      ElementAt gp.order c.gid base → dictGet gp.masters base = some b → b.nodes.length ≤ p →
      NodeOf gp cs (p - b.nodes.length) j base' q → NodeOf gp (c :: cs) p (j + 1) base' q

/-- the components `cs` have got `n` nodes altogether -/
inductive NodeSum (gp : GlyphPart A ASM) : List Component → Nat → Prop
  | nil : NodeSum gp [] 0
  | cons {c : Component} {cs : List Component} {base : PyStr} {b : BGlyph A ASM} {n : Nat} :
      ElementAt gp.order c.gid base → dictGet gp.masters base = some b → NodeSum gp cs n → NodeSum gp (c :: cs) (b.nodes.length + n)

/-- The point `p` of the glyph `key` is called `l`, where `names` has the names of the nodes of the glyphs without components.  The two numbers
after the last node are the side bearings; a node of a composite is called like the node of the component, with the number of the component. -/
inductive Named (gp : GlyphPart A ASM) (names : PyStr → List (Int × PyStr)) : PyStr → Int → PyStr → Prop
  | node {key l : PyStr} {g : BGlyph A ASM} {p : Int} : dictGet gp.masters key = some g → g.components = [] →
      dictGet (names key) p = some l → Named gp names key p l
  | left {key : PyStr} {g : BGlyph A ASM} : dictGet gp.masters key = some g → g.components = [] → Named gp names key g.nodes.length (lit "lsb")
  | right {key : PyStr} {g : BGlyph A ASM} : dictGet gp.masters key = some g → g.components = [] →
      Named gp names key (g.nodes.length + 1) (lit "rsb")
  | component {key base l : PyStr} {g : BGlyph A ASM} {p q : Int} {j : Nat} : dictGet gp.masters key = some g →
      NodeOf gp g.components p j base q → Named gp names base q l → Named gp names key p (l ++ lit "-" ++ natDec j)
  | compositeLeft {key : PyStr} {g : BGlyph A ASM} {n : Nat} : dictGet gp.masters key = some g → g.components ≠ [] →
      NodeSum gp g.components n → Named gp names key n (lit "lsb")
  | compositeRight {key : PyStr} {g : BGlyph A ASM} {n : Nat} : dictGet gp.masters key = some g → g.components ≠ [] →
      NodeSum gp g.components n → Named gp names key (n + 1) (lit "rsb")
  | invalid {key : PyStr} {g : BGlyph A ASM} {n : Nat} {p : Int} : dictGet gp.masters key = some g → g.components ≠ [] →
      NodeSum gp g.components n → (n : Int) + 1 < p → Named gp names key p (lit "invalid")

/-- the stems of the master `m` (C51): those of the hints, followed by those of the links -/
def StemsOfMaster (g : BGlyph A ASM) (m : Nat) (hs vs : List Stem) : Prop :=
  ∃ h1 h2 v1 v2, hs = h1 ++ h2 ∧ vs = v1 ++ v2 ∧
    Corresponds (HintStem (lit "hstem") m) g.hintsH h1 ∧ Corresponds (HintStem (lit "vstem") m) g.hintsV v1 ∧
    Corresponds (LinkStem g.nodes m 1) g.links.y h2 ∧
    Corresponds (LinkStem g.nodes m 0) g.links.x v2

/-- a stem as text -/
def stemLine (st : Stem) : PyStr := st.1 ++ lit " " ++ intDec st.2.1 ++ lit " " ++ intDec st.2.2

/-- the hint sets (C51): without masks one for all stems, at the first node; with masks one for each node at which a section with stems starts -/
def HintSets (named : Int → PyStr → Prop) (hs vs : List Stem) (masks : List (PyStr × Int)) (out : List (PyStr × List PyStr)) : Prop :=
  (masks = [] → hs ++ vs = [] → out = []) ∧
  (masks = [] → hs ++ vs ≠ [] → ∃ label texts, named 0 label ∧ SortedSet (hs ++ vs) texts ∧ out = [(label, texts.map stemLine)]) ∧
  (masks ≠ [] → ∃ (label : Int → PyStr) (texts : Int → List Stem),
    out = (keepFirst ((filledSections hs vs masks).map Prod.fst)).map (fun p => (label p, (texts p).map stemLine)) ∧
    ∀ p ∈ (filledSections hs vs masks).map Prod.fst, named p (label p) ∧ SortedSet (lastFor p (filledSections hs vs masks)) (texts p))

/-- the item of the lib for the TrueType commands: text that has got exactly the commands (C60), or base64 data that is decoded to it; nothing if
there are no commands -/
def ProgramOf (base64 : Bool) (cmds : List TthCommand) (item : Option LibText) : Prop :=
  (cmds = [] → item = none) ∧
  (cmds ≠ [] → ∃ text attrs, readProgram text = some attrs ∧ Corresponds SameContent cmds attrs ∧
    (base64 = false → item = some (.text text)) ∧
    (base64 = true → ∃ data bytes, item = some (.data data) ∧ b64Decode data = some bytes ∧ bytes.map UInt8.toNat = text))

/-- The glyph `x` of a UFO is the master `k` of the glyph `g` with the key `key`.  Its points, its PostScript hints (for a glyph without components)
and its TrueType program use the names `names`. -/
structure UsesNames (ops : AngleOps) (deg : ops.Angle → Rat) (asm : AsmOps) (o : UfoOpts) (gp : GlyphPart ops.Angle asm.Asm) (env : TthEnv)
    (names : PyStr → List (Int × PyStr)) (k : Nat) (key : PyStr) (g : BGlyph ops.Angle asm.Asm) (x : UfoGlyph asm.Asm) : Prop where
  master : IsMaster ops deg asm o.build.minimal gp.order (names key) k g x
  ps : o.build.pshints = true → g.components = [] → ∃ hs vs, StemsOfMaster g k hs vs ∧
    HintSets (Named gp names key) hs vs g.hintmasks x.psHints
  noPs : o.build.pshints = false → x.psHints = []
  tt : ∀ is, g.tth = some is → ∃ cmds, Corresponds (Translated (Named gp names key) env) is cmds ∧ ProgramOf o.base64 cmds x.tth
  noTt : g.tth = none → x.tth = none

/-- a glyph with PostScript hints -/
def PsHinted (g : BGlyph A ASM) : Prop := g.hintsH ≠ [] ∨ g.hintsV ≠ [] ∨ g.links.x ≠ [] ∨ g.links.y ≠ [] ∨ g.hintmasks ≠ []

end
end Verif.Spec

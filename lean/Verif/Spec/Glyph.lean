import Verif.Model.Glyph
import Verif.Spec.Outline
import Verif.Spec.Guides
/-! Specification vocabulary for C42. -/
set_option autoImplicit false
namespace Verif.Spec
open Verif

/-- a list under an optional key, where an empty list counts as absent -/
def dropEmpty {α : Type} (x : Option (List α)) : Option (List α) :=
  match x with
  | some (a :: l) => some (a :: l)
  | _ => none

/-- hints for `n` masters that can be stored -/
def HintsFit (n : Nat) (d : Hints) : Prop :=
  (∀ l ∈ [d.h, d.v], l.length < 2147483648 ∧ ∀ mm ∈ l, mm.length = n ∧ ∀ p ∈ mm, PairFits p) ∧
  (orEmpty d.hintmasks).length < 2147483648 ∧ ∀ m ∈ orEmpty d.hintmasks, m.1 ∈ [lit "h", lit "v", lit "r"] ∧ IsInt32 m.2

/-- what is stored of hints: nothing if there are no hints and no masks -/
def storedHints (h : Option Hints) : Option Hints :=
  match h with
  | none => none
  | some d => if d.h = [] ∧ d.v = [] ∧ dropEmpty d.hintmasks = none then none else some ⟨d.h, d.v, dropEmpty d.hintmasks⟩

/-- a component for `n` masters that can be stored -/
def ComponentFits (n : Nat) (c : Component) : Prop :=
  IsInt32 c.gid ∧ c.offsetX.length = n ∧ c.offsetY.length = n ∧ c.scaleX.length = n ∧ c.scaleY.length = n ∧
  (∀ v ∈ c.offsetX, IsInt32 v) ∧ ∀ v ∈ c.offsetY, IsInt32 v

/-- kerning for `n` masters that can be stored -/
def KerningFits (n : Nat) (d : List (Int × List Int)) : Prop :=
  DictOk d ∧ d.length < 2147483648 ∧ ∀ p ∈ d, IsInt32 p.1 ∧ p.2.length = n ∧ ∀ v ∈ p.2, IsInt32 v

/-- the parameters of a TrueType command, in the order in which they are stored -/
def paramNames (cmd : PyStr) : Option (List PyStr) := (ttCommands.find? (fun c => c.2.1 == cmd)).map fun c => c.2.2

/-- a TrueType instruction that can be stored: a known command with exactly its parameters -/
def InstructionFits (i : Instruction) : Prop :=
  paramNames i.cmd = some (i.params.map Prod.fst) ∧ ∀ p ∈ i.params, IsInt32 p.2

/-- the bytecode for the instructions of imported data; none if they are absent or empty -/
def bytecodeOf (asm : AsmOps) (a : Option asm.Asm) : Except PyErr Bytes :=
  match a with
  | none => .ok []
  | some a => if asm.isEmpty a then .ok [] else asm.assemble a

/-- what is read back for the instructions of imported data: the disassembled bytecode -/
def storedProgram (asm : AsmOps) (a : Option asm.Asm) : Option asm.Asm :=
  match bytecodeOf asm a with
  | .error _ => none
  | .ok b => match asm.disassemble b with
    | .error _ => none
    | .ok a' => some a'

/-- the nodes of imported data can be stored: flag bytes and, starting from the origin, 32-bit steps -/
def ImpNodesFit (l : List ImpNode) : Prop :=
  l.length < 4294967296 ∧ (∀ nd ∈ l, IsByte nd.flags) ∧ ∀ d ∈ stepsFrom (0, 0) (l.map ImpNode.point), PairFits d

/-- Imported data that can be stored: metrics are there; the number of contours is there and agrees with the
endpoints (negative for none); the nodes, the Hdmx bytes and the bytecode can be stored. -/
def ImportedFits (asm : AsmOps) (d : Imported asm.Asm) : Prop :=
  (∃ m, d.metrics = some m ∧ IsUValue m.width ∧ IsInt32 m.lsb ∧ IsInt32 m.unknown1 ∧ IsInt32 m.unknown2 ∧ IsInt32 m.unknown3 ∧
    m.bbox.length = 4 ∧ ∀ v ∈ m.bbox, IsInt32 v) ∧
  (∃ nc, d.numContours = some nc ∧ IsInt32 nc ∧ (orEmpty d.endpoints).length = nc.toNat ∧ ∀ v ∈ orEmpty d.endpoints, IsUValue v) ∧
  ImpNodesFit (orEmpty d.nodes) ∧
  (∃ b a, bytecodeOf asm d.instructions = .ok b ∧ b.length < 4294967296 ∧ asm.disassemble b = .ok a) ∧
  (orEmpty d.hdmx).length < 2147483648 ∧ ∀ v ∈ orEmpty d.hdmx, IsByte v

/-- imported data without a single key (it is treated like no imported data) -/
def NoKeys {ASM : Type} : Imported ASM → Bool
  | ⟨none, none, none, none, none, none⟩ => true
  | _ => false

/-- what is stored of imported data: everything, with empty lists for what is absent; the `on` bit follows from the flags -/
def storedImported (asm : AsmOps) (x : Option (Imported asm.Asm)) : Option (Imported asm.Asm) :=
  match x with
  | none => none
  | some d => if NoKeys d then none else some
    { metrics := d.metrics
      numContours := d.numContours
      endpoints := some (orEmpty d.endpoints)
      nodes := dropEmpty (d.nodes.map fun l => l.map fun nd => ⟨nd.flags, nd.flags % 2, nd.point⟩)
      instructions := storedProgram asm d.instructions
      hdmx := some (orEmpty d.hdmx) }

/-- A glyph that can be stored in a font with `vfbMasters` masters: `numMasters` is there, and all sections that are there have that
number of masters, and numbers and strings that can be stored.  Guides need a name, and the number of masters of the font. -/
def GlyphFits (ops : AngleOps) (asm : AsmOps) (vfbMasters : Nat) (g : Glyph ops.Angle asm.Asm) : Prop :=
  ∃ n : Int, g.numMasters = some n ∧ OutlineFits n (orEmpty g.nodes) ∧
  (∀ s, g.name = some s → IsLatin s ∧ s.length < 2147483648) ∧
  (∀ l, g.metrics = some l → (l = [] ∨ l.length = n.toNat) ∧ ∀ p ∈ l, PairFits p) ∧
  (∀ d, g.hints = some d → HintsFit n.toNat d) ∧
  (∀ d, g.guides = some d → (∃ s, g.name = some s ∧ s ≠ []) ∧ n = vfbMasters ∧ GuidesFit ops vfbMasters d) ∧
  (∀ l, g.components = some l → l.length < 2147483648 ∧ ∀ c ∈ l, ComponentFits n.toNat c) ∧
  (∀ d, g.kerning = some d → KerningFits n.toNat d) ∧
  (∀ d, g.imported = some d → NoKeys d = true ∨ ImportedFits asm d) ∧
  (∀ l, g.tth = some l → l.length < 100000000 ∧ ∀ i ∈ l, InstructionFits i)

/-- what is stored of a glyph: empty sections are dropped, but there is always a (possibly empty) list of nodes; the angle of
a guide becomes that of its slope -/
def storedGlyph (ops : AngleOps) (asm : AsmOps) (g : Glyph ops.Angle asm.Asm) : Glyph ops.Angle asm.Asm :=
  { name := dropEmpty g.name
    numMasters := g.numMasters
    nodes := some (orEmpty g.nodes)
    metrics := dropEmpty g.metrics
    hints := storedHints g.hints
    guides := g.guides.map (reangle ops)
    components := dropEmpty g.components
    kerning := dropEmpty g.kerning
    imported := storedImported asm g.imported
    tth := dropEmpty g.tth }

/-- A glyph in exactly the form in which it is stored. -/
def GlyphNormal (ops : AngleOps) (asm : AsmOps) (g : Glyph ops.Angle asm.Asm) : Prop :=
  g.name ≠ some [] ∧ g.nodes ≠ none ∧ g.metrics ≠ some [] ∧
  (∀ d, g.hints = some d → d.hintmasks ≠ some [] ∧ ¬ (d.h = [] ∧ d.v = [] ∧ d.hintmasks = none)) ∧
  (∀ d, g.guides = some d → AnglesExact ops d) ∧
  g.components ≠ some [] ∧ g.kerning ≠ some [] ∧ g.tth ≠ some [] ∧
  (∀ d, g.imported = some d → NoKeys d = false ∧ d.endpoints ≠ none ∧ d.nodes ≠ some [] ∧ (∀ nd ∈ orEmpty d.nodes, nd.on = nd.flags % 2) ∧
    (∃ b a, bytecodeOf asm d.instructions = .ok b ∧ asm.disassemble b = .ok a ∧ d.instructions = some a) ∧ d.hdmx ≠ none)

/-- What a parsed glyph must satisfy in order to be written back: the sections that depend on the number of masters have the
number of masters of the outline (and of the font, for guides), there are no empty sections, the imported data is complete and its
program survives reassembling. -/
def GlyphComplete (ops : AngleOps) (asm : AsmOps) (vfbMasters : Nat) (g : Glyph ops.Angle asm.Asm) : Prop :=
  (∃ n : Int, g.numMasters = some n ∧ n < 2147483648 ∧ (orEmpty g.nodes ≠ [] → 1 ≤ n) ∧ outlineSize n.toNat (orEmpty g.nodes) < 2147483648 ∧
    (∀ l, g.metrics = some l → l.length = n.toNat) ∧
    (∀ d, g.hints = some d → ∀ l ∈ [d.h, d.v], ∀ mm ∈ l, mm.length = n.toNat) ∧
    (∀ d, g.guides = some d → g.name ≠ none ∧ n = vfbMasters ∧ ∀ l ∈ [d.h, d.v], ∀ gd ∈ l, gd.length = vfbMasters) ∧
    (∀ l, g.components = some l → ∀ c ∈ l, c.offsetX.length = n.toNat) ∧
    (∀ l, g.kerning = some l → ∀ p ∈ l, p.2.length = n.toNat)) ∧
  g.name ≠ some [] ∧ g.metrics ≠ some [] ∧ g.components ≠ some [] ∧ g.kerning ≠ some [] ∧
  (∀ d, g.imported = some d → d.metrics ≠ none ∧ d.numContours ≠ none ∧ d.hdmx ≠ none ∧
    ∃ b a, d.instructions = some a ∧ bytecodeOf asm (some a) = .ok b ∧ b.length < 4294967296 ∧ asm.disassemble b = .ok a) ∧
  ∀ l, g.tth = some l → l.length < 100000000

end Verif.Spec

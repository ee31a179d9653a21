import Verif.Model.Edit
import Verif.Spec.VfbPens
import Verif.Spec.Table
/-! Specification vocabulary for C103: new contours for glyphs of a font. -/
set_option autoImplicit false
namespace Verif.Spec
open Verif

variable {A ASM : Type}

/-- the masters of a glyph from number `k` on are drawn anew, one after the other, each with its contours -/
def redrawGlyph (C : Codec (Decompiled A ASM) (List MasterData)) (key : PyStr) :
    Nat → List (List UfoContour) → FontObj (Decompiled A ASM) (List MasterData) → FontObj (Decompiled A ASM) (List MasterData) × Option PyErr
  | _, [], f => (f, none)
  | k, cs :: css, f =>
    match f.redraw C k key (cs.flatMap contourCalls) with
    | (f, none) => redrawGlyph C key (k + 1) css f
    | (f, some e) => (f, some e)

/-- some glyphs are drawn anew, in all masters; each edit is the key of a glyph with the contours of its masters -/
def redrawGlyphs (C : Codec (Decompiled A ASM) (List MasterData)) :
    List (PyStr × List (List UfoContour)) → FontObj (Decompiled A ASM) (List MasterData) → FontObj (Decompiled A ASM) (List MasterData) × Option PyErr
  | [], f => (f, none)
  | (key, css) :: edits, f =>
    match redrawGlyph C key 0 css f with
    | (f, none) => redrawGlyphs C edits f
    | (f, some e) => (f, some e)

/-- Contours for each of `n` masters that can be drawn and stored: TrueType contours, compatible with each other, coordinates up to a
billion, and less than a hundred million points in all masters together. -/
structure Drawable (n : Nat) (css : List (List UfoContour)) : Prop where
  masters : css.length = n
  trueType : ∀ cs ∈ css, ∀ c ∈ cs, TrueTypeContour c
  compatible : ∀ a ∈ css, ∀ b ∈ css, Compatible a b
  coordinates : ∀ cs ∈ css, ∀ c ∈ cs, ∀ p ∈ c, (-1000000000 ≤ p.pt.1 ∧ p.pt.1 ≤ 1000000000) ∧ (-1000000000 ≤ p.pt.2 ∧ p.pt.2 ≤ 1000000000)
  points : ∀ cs ∈ css, n * (cs.flatten).length < 100000000

/-- The entry is decompiled to a glyph which has got nodes, zero metrics for `n` masters, and nothing else: no name, hints, guides,
components, kerning, imported data or instructions. -/
def BareGlyph (C : Codec (Decompiled A ASM) (List MasterData)) (ctx : Ctx) (n : Nat) (y : Entry (Decompiled A ASM) (List MasterData))
    (nodes : List MMNode) : Prop :=
  ∃ e', y.decompile C ctx = (.ok (), e', false) ∧ e'.data = .dec (.glyph
    { name := none, numMasters := some (n : Int), nodes := some nodes, metrics := some (List.replicate n (0, 0)), hints := none, guides := none,
      components := none, kerning := none, imported := none, tth := none })

end Verif.Spec

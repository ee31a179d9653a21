import Verif.Model.Mapping
import Verif.Model.Table
import Verif.Model.VfbPens
/-! Model of editing a glyph of a font: `master[name]`, `clearContours()`, `getPointPen()` and the calls of the pen, with their effect on
the entries of the font — vfb/vfb.py:37-38, vfb/glyph.py:362-378, 419-432, 456-467, vfb/pens.py:16-128. -/
set_option autoImplicit false
namespace Verif

variable {A ASM : Type}

/-- `clearContours()`, `getPointPen()` and calls of the pen on master `m` of a glyph whose entry is `e`: see `MasterGlyphs.redraw`.  Of
the first master the hints are deleted.  A glyph entry that is not decompiled raises TypeError (`del target["hints"]`).  After
`clearContours` all of `temp_masters` are dictionaries, so that `filterMap` drops nothing.
— vfb/glyph.py:419-432, 456-467, vfb/pens.py:16-31 -/
def redrawEntry (n m : Nat) (order : List PyStr) (calls : List PenCall) (e : Entry (Decompiled A ASM) (List MasterData)) :
    Entry (Decompiled A ASM) (List MasterData) × Option PyErr :=
  match e.data with
  | .dec (.glyph g) =>
    match MasterGlyphs.redraw n m order calls ⟨⟨g.nodes, g.components⟩, e.temp_masters.map (·.map some)⟩ with
    | (r, x) =>
      ({ e with
         data := .dec (.glyph { g with nodes := r.data.nodes, components := r.data.components, hints := if m = 0 then none else g.hints })
         temp_masters := r.temp.map (·.filterMap id) }, x)
  | _ => (e, some .type)

/-- `master = font.get_masters()[m]; glyph = master[key]`, then `glyph.clearContours()`, `glyph.getPointPen()` and calls of the pen.  An
entry that belongs to a file that was read before is not in the font any more, so that the font does not change.
— vfb/vfb.py:37-38, 193-202, vfb/glyph.py:362-378, 419-432, 456-467 -/
def FontObj.redraw (C : Codec (Decompiled A ASM) (List MasterData)) (f : FontObj (Decompiled A ASM) (List MasterData)) (m : Nat) (key : PyStr)
    (calls : List PenCall) : FontObj (Decompiled A ASM) (List MasterData) × Option PyErr :=
  match f.call C (.get (some m) key) with
  | (.ok (.glyphMaster o _), f') =>
    if o.source = f'.reads then
      match f'.vfb.entries[o.entry]? with
      | some e =>
        match redrawEntry f'.vfb.ctx.num_masters.toNat m f'.look.order calls e with
        | (e', x) => ({ f' with vfb := { f'.vfb with entries := f'.vfb.entries.set o.entry e' } }, x)
      | none => (f', some .index)
    else (f', none)
  | (.ok _, f') => (f', none)
  | (.error x, f') => (f', some x)

end Verif

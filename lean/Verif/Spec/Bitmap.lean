import Verif.Model.Bitmap
import Verif.Spec.Entry
/-! Specification vocabulary for C23/C24. -/
set_option autoImplicit false
namespace Verif.Spec
open Verif

/-- what a run-length chunk `[spec, bytes…]` stands for: `spec + 1` literal bytes if `spec ≥ 0`,
one byte repeated `1 - spec` times otherwise -/
inductive Unpacks : List Int → List Int → Prop where
  | literal (bytes : List Int) (h : 1 ≤ bytes.length ∧ bytes.length ≤ 128) :
      Unpacks (((bytes.length : Int) - 1) :: bytes) bytes
  | repeated (n : Nat) (b : Int) (h : 2 ≤ n ∧ n ≤ 128) : Unpacks [1 - (n : Int), b] (List.replicate n b)

/-- `Packs chunks bytes`: the chunks stand for the byte sequence -/
inductive Packs : List (List Int) → List Int → Prop where
  | nil : Packs [] []
  | cons {c : List Int} {cs : List (List Int)} {a b : List Int} :
      Unpacks c a → Packs cs b → Packs (c :: cs) (a ++ b)

/-- all rows have `n` entries, except that the last one may be shorter (not empty) -/
def RowsOf (n : Nat) : List (List Int) → Prop
  | [] => True
  | [r] => 0 < r.length ∧ r.length ≤ n
  | r :: s :: rs => r.length = n ∧ RowsOf n (s :: rs)

/-- One row of the preview, for `w` pixels: each pixel of the row, most significant bit first, is drawn as a
solid block if it is set and as a box otherwise. -/
def previewRow (w : Int) (row : List Int) : PyStr :=
  (List.range (min w.toNat (8 * row.length))).flatMap fun x =>
    if (row.getD (x / 8) 0).toNat.testBit (7 - x % 8) then [0x2588, 0x2589] else [0x20, 0x2595]

/-- A bitmap of `w` pixels per row: rows of whole 16-bit words, bytes only, fewer than 2^30 bytes,
and the preview belongs to the rows.  (A width below -15, which only a damaged file contains, is
accepted with an empty bitmap.) -/
structure BitmapOk (w : Int) (b : BitmapData) : Prop where
  rows : (0 < w ∧ RowsOf (2 * ((w.toNat + 15) / 16)) b.data) ∨ (w < -15 ∧ b.data = [])
  bytes : ∀ row ∈ b.data, ∀ x ∈ row, 0 ≤ x ∧ x < 256
  size : b.data.flatten.length < 1073741824
  preview : b.preview = b.data.map (previewRow w)

structure BackgroundOk (d : BackgroundImage) : Prop where
  origin : IsInt32 d.origin.1 ∧ IsInt32 d.origin.2
  size_units : IsUValue d.size_units.1 ∧ IsUValue d.size_units.2
  size_pixels : IsUValue d.size_pixels.1 ∧ IsUValue d.size_pixels.2
  bitmap : BitmapOk d.size_pixels.1 d.bitmap

structure GlyphBitmapOk (d : GlyphBitmap) : Prop where
  ppm : IsUValue d.ppm
  origin : IsInt32 d.origin.1 ∧ IsInt32 d.origin.2
  adv : IsUValue d.adv.1 ∧ IsUValue d.adv.2
  size_pixels : IsUValue d.size_pixels.1 ∧ IsUValue d.size_pixels.2
  bitmap : BitmapOk d.size_pixels.1 d.bitmap

end Verif.Spec

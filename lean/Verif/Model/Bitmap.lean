import Verif.Model.Stream
/-! Model of `parsers/bitmap.py` and `compilers/bitmap.py`. -/
set_option autoImplicit false
namespace Verif

/-- `[l[j : j + m] for j in range(0, len(l), m)]` for `m > 0` — compilers/bitmap.py:13-21 -/
def chunksOf {α : Type} (m : Nat) (l : List α) : List (List α) :=
  (List.range ((l.length + m - 1) / m)).map fun j => (l.drop (j * m)).take m

/-! ### run-length coding -/

/-- `_read_bitmap(datalen)` — parsers/bitmap.py:10-40.  Every iteration decreases `bytes_remaining`,
so `fuel = datalen` is enough; a chunk is `[v, byte, …]`. -/
def readBitmapLoop : Nat → Int → R (List (List Int))
  | 0, remaining => if remaining ≤ 0 then pure [] else R.throw .fuel
  | fuel + 1, remaining =>
    if remaining ≤ 0 then pure []                                      -- :15
    else do
      let v ← readI8                                                   -- :18
      if 0 ≤ v then
        if v + 1 > remaining - 1 then pure []                          -- :23-24 break
        else do
          let bs ← R.forRange (v + 1) readU8                           -- :26-28
          let cs ← readBitmapLoop fuel (remaining - 1 - (v + 1))
          pure ((v :: bs) :: cs)
      else
        if remaining - 1 < 1 then pure []                              -- :33-34 break
        else do
          let i ← readU8                                               -- :36
          let cs ← readBitmapLoop fuel (remaining - 1 - 1)
          pure ([v, i] :: cs)

/-- `_parse_bitmap_data` — parsers/bitmap.py:54-87 -/
def readBitmap (datalen : Int) : R (List (List Int)) := readBitmapLoop datalen.toNat datalen

/-- `_decode_bitmap(chunks)` — parsers/bitmap.py:42-52 (`chunk * num_values` repeats the list) -/
def decodeBitmap : List (List Int) → Except PyErr (List Int)
  | [] => .ok []
  | [] :: _ => .error .index                                           -- pop from empty list
  | (spec :: chunk) :: cs =>
    match decodeBitmap cs with
    | .error e => .error e
    | .ok rest =>
      .ok ((if 0 ≤ spec then chunk else (List.replicate (-spec + 1).toNat chunk).flatten) ++ rest)

/-- `itertools.groupby(xs)` as (value, number of repetitions) — used in compilers/bitmap.py:40-42 -/
def groupRuns : List Int → List (Int × Nat)
  | [] => []
  | x :: xs =>
    match groupRuns xs with
    | [] => [(x, 1)]
    | (y, n) :: gs => if x = y then (y, n + 1) :: gs else (x, 1) :: (y, n) :: gs

/-- `flush_buffer(target, buf, 128)` — compilers/bitmap.py:13-21: the chunks it appends -/
def flushBuffer (buf : List Int) : List (List Int) :=
  (chunksOf 128 buf).map fun chunk => ((chunk.length : Int) - 1) :: chunk

/-- the `for value, expanded in groupby(…)` loop of `_encode_bitmap` — compilers/bitmap.py:38-66 -/
def encodeRuns : List (Int × Nat) → List (List Int) → List Int → List (List Int)
  | [], encoded, buf => encoded ++ flushBuffer buf                     -- :65
  | (value, count) :: gs, encoded, buf =>
    if count > 2 then
      let encoded := encoded ++ flushBuffer buf                        -- :47
      let encoded := encoded ++ List.replicate (count / 128) [-127, value]   -- :51-53
      let encoded :=
        if count % 128 ≠ 0 then encoded ++ [[-((count % 128 : Nat) : Int) + 1, value]]  -- :54-56
        else encoded
      encodeRuns gs encoded []
    else encodeRuns gs encoded (buf ++ List.replicate count value)     -- :62

/-- `_encode_bitmap(data)` — compilers/bitmap.py:25-66 -/
def encodeBitmap (data : List (List Int)) : List (List Int) := encodeRuns (groupRuns data.flatten) [] []

/-- `_compile_bitmap_data` without the platform inversion — compilers/bitmap.py:74-81 -/
def writeRle (rows : List (List Int)) : W :=
  let encoded := encodeBitmap rows
  writeValue (encoded.flatten.length) ++
    W.all encoded fun c =>
      match c with
      | [] => .error .index
      | spec :: bs => writeI8 spec ++ W.all bs writeU8

/-! ### bitmaps -/

/-- `BitmapDataDict`: rows of bytes and an ASCII-art preview — typing.py:22-24 -/
structure BitmapData where
  data : List (List Int)
  preview : List PyStr
  deriving DecidableEq, Repr

/-- `f"{r:08b}".replace("0", " ▕").replace("1", "█▉")` for a byte — parsers/bitmap.py:94 -/
def previewByte (r : Int) : PyStr :=
  [7, 6, 5, 4, 3, 2, 1, 0].flatMap fun k : Nat =>
    if r.toNat.testBit k then [0x2588, 0x2589] else [0x20, 0x2595]

/-- `_get_preview(data, payload_width)` — parsers/bitmap.py:89-101 (rows exist only for
`payload_width > 0`) -/
def getPreview (data : List (List Int)) (w : Int) : List PyStr :=
  data.map fun row => (row.flatMap previewByte).take (2 * w.toNat)

/-- `bytes_per_row` — parsers/bitmap.py:69 -/
def bytesPerRow (w : Int) : Int := (w + 15) / 16 * 2

/-- splitting into rows — parsers/bitmap.py:69-75: `range` with a zero step is a ValueError, with a
negative step it is empty. -/
def splitRows (w : Int) (data : List Int) : Except PyErr (List (List Int)) :=
  if bytesPerRow w = 0 then .error .value
  else if bytesPerRow w < 0 then .ok []
  else .ok (chunksOf (bytesPerRow w).toNat data)

/-- `_parse_bitmap_data(w, datalen)` — parsers/bitmap.py:54-87 (`origin_top` is never passed,
`preview` is always `True`); `windows` is `vfb.writer_platform == "windows"`. -/
def parseBitmapData (windows : Bool) (w datalen : Int) : R BitmapData := do
  let rle ← readBitmap datalen
  let data ← R.lift (decodeBitmap rle)
  let data := if windows then data.map fun b => (-b - 1) + 0x100 else data     -- `~b + 0x100`
  let nice ← R.lift (splitRows w data)
  pure { data := nice, preview := getPreview nice w }

/-- `_compile_bitmap_data(bitmap)` — compilers/bitmap.py:68-81 -/
def compileBitmapData (windows : Bool) (bitmap : BitmapData) : W :=
  let data := if windows then bitmap.data.map fun row => row.map fun b => (-b - 1) - 0x100   -- `~b - 0x100`
    else bitmap.data
  writeRle data

/-- `BackgroundImageDict` — typing.py:27-31 -/
structure BackgroundImage where
  origin : Int × Int
  size_units : Int × Int
  size_pixels : Int × Int
  bitmap : BitmapData
  deriving DecidableEq, Repr

/-- `BackgroundBitmapParser._parse` — parsers/bitmap.py:104-124 -/
def parseBackground (windows : Bool) : R BackgroundImage := do
  let ox ← readValue
  let oy ← readValue
  let uw ← readValue false
  let uh ← readValue false
  let w ← readValue false
  let h ← readValue false
  let datalen ← readValue false
  let bitmap ← parseBitmapData windows w datalen
  pure { origin := (ox, oy), size_units := (uw, uh), size_pixels := (w, h), bitmap }

/-- `BackgroundBitmapCompiler._compile` — compilers/bitmap.py:84-99 -/
def compileBackground (windows : Bool) (d : BackgroundImage) : W :=
  writeValue d.origin.1 ++ writeValue d.origin.2 ++
  writeValue d.size_units.1 false ++ writeValue d.size_units.2 false ++
  writeValue d.size_pixels.1 false ++ writeValue d.size_pixels.2 false ++
  compileBitmapData windows d.bitmap

/-- `GlyphBitmapDict` — typing.py:181-186 -/
structure GlyphBitmap where
  ppm : Int
  origin : Int × Int
  adv : Int × Int
  size_pixels : Int × Int
  bitmap : BitmapData
  deriving DecidableEq, Repr

/-- one bitmap of `GlyphBitmapsParser._parse` — parsers/bitmap.py:139-149 -/
def parseGlyphBitmap (windows : Bool) : R GlyphBitmap := do
  let ppm ← readValue false
  let ox ← readValue
  let oy ← readValue
  let aw ← readValue false
  let ah ← readValue false
  let w ← readValue false
  let h ← readValue false
  let datalen ← readValue
  let bitmap ← parseBitmapData windows w datalen
  pure { ppm, origin := (ox, oy), adv := (aw, ah), size_pixels := (w, h), bitmap }

/-- `GlyphBitmapsParser._parse` — parsers/bitmap.py:127-151 -/
def parseGlyphBitmaps (windows : Bool) : R (List GlyphBitmap) := do
  let num ← readValue false
  R.forRange num (parseGlyphBitmap windows)

/-- one bitmap of `GlyphBitmapsCompiler._compile` — compilers/bitmap.py:106-120 -/
def compileGlyphBitmap (windows : Bool) (d : GlyphBitmap) : W :=
  writeValue d.ppm false ++ writeValue d.origin.1 ++ writeValue d.origin.2 ++
  writeValue d.adv.1 false ++ writeValue d.adv.2 false ++
  writeValue d.size_pixels.1 false ++ writeValue d.size_pixels.2 false ++
  compileBitmapData windows d.bitmap

/-- `GlyphBitmapsCompiler._compile` — compilers/bitmap.py:102-120 -/
def compileGlyphBitmaps (windows : Bool) (data : List GlyphBitmap) : W :=
  writeValue data.length false ++ W.all data (compileGlyphBitmap windows)

end Verif

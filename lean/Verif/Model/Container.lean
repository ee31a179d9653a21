import Verif.Model.Stream
/-! Model of the file container: `vfb/entry.py`, `vfb/header.py`, `vfb/vfb.py`, `parsers/header.py`,
`compilers/header.py`.

The table of parser and compiler classes (`constants.py:144-324`) is a parameter `C : Codec D T` here:
what is proved holds for every table; `Verif.Model.Table` is the actual one. -/
set_option autoImplicit false
namespace Verif

/-- the attributes of a `Vfb` that entry parsers and compilers read — vfb/vfb.py:87-102 -/
structure Ctx where
  num_masters : Int := 0
  ttStemsV_count : Int := 0
  ttStemsH_count : Int := 0
  writer_platform : PyStr := lit "macos"
  encoding : PyStr := lit "utf-8"
  deriving DecidableEq, Repr

/-- The parser and compiler classes by entry id, and the few things the container does with decompiled
data.  `D` is the type of decompiled data, `T` that of `temp_masters`.
— constants.py:144-324, vfb/entry.py:131-149 -/
structure Codec (D T : Type) where
  /-- `_parse` of the parser class of an id; ids that are not in the table use `BaseParser` — vfb/entry.py:139-149 -/
  parse : Int → Ctx → R D
  /-- `_compile` of the compiler class of an id, if there is one; the data may be `None` -/
  compile : Int → Option (Ctx → Option D → W)
  /-- `compiler.merge(temp_masters, data)`: the data afterwards (`merge` works in place), and the exception if there is one -/
  merge : Int → T → Option D → Option D × Option PyErr
  /-- `data["platform"]` of the FL Version entry -/
  platform : D → PyStr
  /-- the master count -/
  masters : D → Int
  /-- `len(data.get("ttStemsV", []))`, `len(data.get("ttStemsH", []))` -/
  stems : D → Int × Int
  /-- `get_empty_glyph(num_masters)` — templates/glyph.py -/
  emptyGlyph : Int → D
  /-- `data["name"]` of a glyph entry -/
  glyphName : D → PyStr

/-- what is stored in `VfbEntry.data`: nothing, the binary data, or the decompiled data
— vfb/entry.py:27-54 -/
inductive EData (D : Type) where
  | none
  | bytes (b : Bytes)
  | dec (d : D)
  deriving DecidableEq, Repr

/-- `VfbEntry` — vfb/entry.py:27-54.  The id is a number (entries without an id, and entries whose
parser or compiler class was overridden by an argument, are not modelled).  `cached` is the value of the
cached property `header`, if it was computed before. -/
structure Entry (D T : Type) where
  id : Int
  data : EData D := .none
  temp_masters : Option T := none
  cached : Option Bytes := none
  deriving DecidableEq, Repr

variable {D T : Type}

/-- `VfbEntry.size` — vfb/entry.py:104-117 -/
def Entry.size (e : Entry D T) : Except PyErr Nat :=
  match e.data with
  | .none => .ok 0
  | .bytes b => .ok b.length
  | .dec _ => .error .runtime

/-- `id | 0x8000` — vfb/entry.py:76-86 -/
def setBit15 (id : Int) : Int := if id / 0x8000 % 2 = 1 then id else id + 0x8000

/-- the bytes of an entry header — vfb/entry.py:76-86 -/
def headerBytes (id : Int) (size : Nat) : W :=
  if size > 0xFFFF then packLE 2 false (setBit15 id) ++ packLE 4 false size
  else packLE 2 false id ++ packLE 2 false size

/-- `VfbEntry.header`, a cached property: computed at the first access only — vfb/entry.py:62-86 -/
def Entry.header (e : Entry D T) : Except PyErr Bytes × Entry D T :=
  match e.cached with
  | some h => (.ok h, e)
  | none =>
    match e.size with
    | .error x => (.error x, e)
    | .ok n =>
      match headerBytes e.id n with
      | .error x => (.error x, e)
      | .ok h => (.ok h, { e with cached := some h })

/-- `VfbEntry._read_entry` and `read` — vfb/entry.py:151-165, 250-263; the size of an MMKernPair entry
(id 1410) is calculated from the number of masters -/
def readEntry (num_masters : Int) : R (Int × Bytes) := do
  let raw_id ← readU16
  let id := raw_id % 0x8000
  let num_bytes ← if raw_id ≥ 0x8000 then readU32 else readU16
  let size := if id = 1410 then 2 * 4 + num_masters * 2 else num_bytes
  let data ← R.readN size
  pure (id, data)

/-- `VfbEntry.merge_masters_data` — vfb/entry.py:233-248; `data` is whatever is to be compiled -/
def Entry.merged (C : Codec D T) (ctx : Ctx) (e : Entry D T) : Option D × Option PyErr :=
  let data := match e.data with
    | .dec d => some d
    | _ => none
  match e.temp_masters with
  | none => (data, none)
  | some t => if ctx.num_masters = 1 then (data, none) else C.merge e.id t data

/-- the entry with the data it has after merging in place — vfb/entry.py:181-205 -/
def Entry.withMerged (e : Entry D T) (data : Option D) : Entry D T :=
  match data with
  | some d => { e with data := .dec d }
  | none => e

/-- `VfbEntry.compile` — vfb/entry.py:181-205.  The merge happens in place before the compiler runs, so the
merged data remain in the entry when the compiler, or the merge itself, then fails. -/
def Entry.compile (C : Codec D T) (ctx : Ctx) (e : Entry D T) : Except PyErr Bool × Entry D T :=
  match e.data with
  | .bytes _ => (.ok true, e)
  | _ =>
    match C.compile e.id with
    | none => (.ok false, e)
    | some comp =>
      match e.merged C ctx with
      | (data, some x) => (.error x, e.withMerged data)
      | (data, none) =>
        match comp ctx data with
        | .error x => (.error x, e.withMerged data)
        | .ok b => (.ok true, { e with data := .bytes b })

/-- `VfbEntry.decompile` — vfb/entry.py:207-231.  The flag says whether `vfb.any_errors` is set. -/
def Entry.decompile (C : Codec D T) (ctx : Ctx) (e : Entry D T) : Except PyErr Unit × Entry D T × Bool :=
  match e.data with
  | .none => (.error .value, e, false)
  | .dec _ => (.ok (), e, false)
  | .bytes b =>
    match parseEntry (C.parse e.id ctx) b with
    | .error x => (.error x, e, true)
    | .ok d => (.ok (), { e with data := .dec d }, false)

/-! ### header -/

/-- `VfbHeaderDict` — typing.py:416-421 -/
structure Header where
  signature : Int
  app_version : Int
  file_version : Int
  version_major : Int
  version_minor : Int
  deriving DecidableEq, Repr

/-- `VfbHeader.data` — vfb/header.py:40-50 -/
inductive HData where
  | none
  | bytes (b : Bytes)
  | dec (h : Header)
  deriving DecidableEq, Repr

/-- the fields of the header and the offset of the data — parsers/header.py:26-46 -/
def parseHeaderFields : R (Header × Int) := do
  let signature ← readU32
  if signature = 0x464C571A then do
    let app_version ← readU8
    if app_version = 0x31 then do
      let file_version ← readU8
      if file_version = 0x30 then do
        let version_major ← readU8
        if version_major = 3 then do
          let version_minor ← readU8
          let data_offset ← readU32
          pure (⟨signature, app_version, file_version, version_major, version_minor⟩, data_offset)
        else R.throw .assertion
      else R.throw .assertion
    else R.throw .assertion
  else R.throw .assertion

/-- `VfbHeaderParser.parse` — parsers/header.py:26-48; the stream must be at its start, the final `seek`
is relative to it -/
def parseHeader : R Header := fun s =>
  match parseHeaderFields s with
  | .ok (h, data_offset) _ => .ok h (s.drop data_offset.toNat)
  | .err e r => .err e r

/-- `VfbHeaderCompiler._compile` — compilers/header.py:16-27 -/
def compileHeader (h : Header) : W :=
  writeU32 h.signature ++ writeU8 h.app_version ++ writeU8 h.file_version ++ writeU8 h.version_major ++
  writeU8 h.version_minor ++ writeU32 44 ++ W.all (List.replicate 32 (0 : Int)) writeU8

/-- `VfbHeader.compile` — vfb/header.py:40-50 -/
def HData.compile : HData → Except PyErr HData
  | .bytes b => .ok (.bytes b)
  | .none => .error .type
  | .dec h =>
    match compileHeader h with
    | .ok b => .ok (.bytes b)
    | .error e => .error e

/-- `VfbHeader.decompile` — vfb/header.py:52-58 -/
def HData.decompile : HData → Except PyErr HData
  | .bytes b =>
    match parseHeader b with
    | .ok h _ => .ok (.dec h)
    | .err e _ => .error e
  | h => .ok h

/-! ### Vfb -/

/-- `Vfb` — vfb/vfb.py:70-112.  `glyphs` holds the keys of `_glyphs` in insertion order; `glyph_order`
is always the same list and is not modelled separately. -/
structure Vfb (D T : Type) where
  header : HData := .none
  entries : List (Entry D T) := []
  ctx : Ctx := {}
  drop_keys : List Int := []
  only_header : Bool := false
  force_unicode_strings : Bool := false
  any_errors : Bool := false
  glyphs : List PyStr := []

/-- `Vfb.add_entry` — vfb/vfb.py:114-122 -/
def Vfb.addEntry (v : Vfb D T) (e : Entry D T) : Vfb D T := { v with entries := v.entries ++ [e] }

/-- `Vfb.clear` — vfb/vfb.py:135-140 -/
def Vfb.clear (v : Vfb D T) : Vfb D T := { v with header := .none, entries := [] }

/-- what is noted when an entry of one of the three special ids has been decompiled — vfb/vfb.py:254-279 -/
def noteCtx (C : Codec D T) (force : Bool) (id : Int) (d : D) (ctx : Ctx) : Ctx :=
  if id = 10 then
    { ctx with
      writer_platform := C.platform d
      encoding := if force = true ∨ C.platform d = lit "macos" then lit "utf-8" else lit "cp1252" }
  else if id = 1503 then { ctx with num_masters := C.masters d }
  else if id = 1269 then { ctx with ttStemsV_count := (C.stems d).1, ttStemsH_count := (C.stems d).2 }
  else ctx

/-- the ids that are decompiled while reading: FLVersion, MasterCount, TrueTypeStems
— vfb/vfb.py:253-282 -/
def isSpecial (id : Int) : Bool := id = 10 || id = 1503 || id = 1269

/-- one iteration of the loop of `read_stream` after the entry has been read — vfb/vfb.py:253-282 -/
def Vfb.addRead (C : Codec D T) (v : Vfb D T) (id : Int) (data : Bytes) : Except PyErr Unit × Vfb D T :=
  if isSpecial id = true then
    match Entry.decompile C v.ctx { id := id, data := .bytes data } with
    | (.error x, _, err) => (.error x, { v with any_errors := v.any_errors || err })
    | (.ok (), e, _) =>
      let ctx := match e.data with
        | .dec d => noteCtx C v.force_unicode_strings id d v.ctx
        | _ => v.ctx
      (.ok (), { v with ctx := ctx, entries := if id ∈ v.drop_keys then v.entries else v.entries ++ [e] })
  else
    (.ok (), { v with entries := if id ∈ v.drop_keys then v.entries else v.entries ++ [{ id := id, data := .bytes data }] })

/-- the loop of `read_stream` — vfb/vfb.py:242-285: until BlockFileDataEnd (id 2).  `fuel` bounds the
number of iterations.  (`except EOFError` is never reached: reading an entry does not raise.) -/
def readLoop (C : Codec D T) : Nat → Vfb D T → Bytes → Except PyErr Unit × Vfb D T
  | 0, v, _ => (.error .fuel, v)
  | fuel + 1, v, s =>
    match readEntry v.ctx.num_masters s with
    | .err x _ => (.error x, v)
    | .ok (id, data) rest =>
      match v.addRead C id data with
      | (.error x, v') => (.error x, v')
      | (.ok (), v') => if id = 2 then (.ok (), v') else readLoop C fuel v' rest

/-- `Vfb.read_bytes` — vfb/vfb.py:231-292, 305-313, on a buffer holding `file`, with a bound on the
number of entries -/
def Vfb.readFuel (C : Codec D T) (fuel : Nat) (v : Vfb D T) (file : Bytes) : Except PyErr Unit × Vfb D T :=
  let v := v.clear
  match parseHeader file with
  | .err x _ => (.error x, v)
  | .ok h rest =>
    let v := { v with header := .dec h }
    if v.only_header = true then (.ok (), v) else readLoop C fuel v rest

/-- `Vfb.read_bytes`.  As long as bytes are left, every iteration consumes some, so the bound is
exceeded only if the loop never ends (`C11_…`). — vfb/vfb.py:305-313, 231-292 -/
def Vfb.readBytes (C : Codec D T) (v : Vfb D T) (file : Bytes) : Except PyErr Unit × Vfb D T :=
  v.readFuel C (file.length + 1) file

/-- `for e in self.entries: e.compile()` — vfb/vfb.py:147-148; the return values are ignored -/
def compileEntries (C : Codec D T) (ctx : Ctx) : List (Entry D T) → Except PyErr Unit × List (Entry D T)
  | [] => (.ok (), [])
  | e :: es =>
    match e.compile C ctx with
    | (.error x, e') => (.error x, e' :: es)
    | (.ok _, e') =>
      match compileEntries C ctx es with
      | (r, es') => (r, e' :: es')

/-- `Vfb.compile` — vfb/vfb.py:142-148 -/
def Vfb.compile (C : Codec D T) (v : Vfb D T) : Except PyErr Unit × Vfb D T :=
  match v.header.compile with
  | .error x => (.error x, v)
  | .ok h =>
    match compileEntries C v.ctx v.entries with
    | (r, es) => (r, { v with header := h, entries := es })

/-- `for entry in self.entries: if entry.id in self.drop_keys: continue; entry.decompile()` —
vfb/vfb.py:211-215; also returns whether `any_errors` was set -/
def decompileEntries (C : Codec D T) (ctx : Ctx) (drop : List Int) :
    List (Entry D T) → Except PyErr Unit × List (Entry D T) × Bool
  | [] => (.ok (), [], false)
  | e :: es =>
    if e.id ∈ drop then
      match decompileEntries C ctx drop es with
      | (r, es', err) => (r, e :: es', err)
    else
      match e.decompile C ctx with
      | (.error x, e', err) => (.error x, e' :: es, err)
      | (.ok (), e', _) =>
        match decompileEntries C ctx drop es with
        | (r, es', err) => (r, e' :: es', err)

/-- `Vfb.decompile` — vfb/vfb.py:204-219 -/
def Vfb.decompile (C : Codec D T) (v : Vfb D T) : Except PyErr Unit × Vfb D T :=
  match v.header.decompile with
  | .error x => (.error x, { v with any_errors := false })
  | .ok h =>
    match decompileEntries C v.ctx v.drop_keys v.entries with
    | (r, es, err) => (r, { v with header := h, entries := es, any_errors := err })

/-- writing the entries — vfb/vfb.py:337-342: result, bytes written so far, entries (with their headers
cached) -/
def emitEntries : List (Entry D T) → Except PyErr Unit × Bytes × List (Entry D T)
  | [] => (.ok (), [], [])
  | e :: es =>
    match e.header with
    | (.error x, e') => (.error x, [], e' :: es)
    | (.ok h, e') =>
      match e'.data with
      | .dec _ => (.error .assertion, h, e' :: es)
      | .none =>
        match emitEntries es with
        | (r, out, es') => (r, h ++ out, e' :: es')
      | .bytes b =>
        match emitEntries es with
        | (r, out, es') => (r, h ++ b ++ out, e' :: es')

/-- `Vfb.write_bytes` — vfb/vfb.py:322-342: result, the bytes that have been written to the buffer, and the
state of the font -/
def Vfb.writeBytes (C : Codec D T) (v : Vfb D T) : Except PyErr Unit × Bytes × Vfb D T :=
  match v.compile C with
  | (.error x, v') => (.error x, [], v')
  | (.ok (), v') =>
    match v'.header with
    | .bytes hb =>
      match emitEntries v'.entries with
      | (r, out, es) => (r, hb ++ out, { v' with entries := es })
    | _ => (.error .assertion, [], v')

/-- `Vfb.write` — vfb/vfb.py:315-320: the file is opened (and truncated) before anything is compiled;
result, new contents of the file, state of the font -/
def Vfb.write (C : Codec D T) (v : Vfb D T) (_old : Bytes) : Except PyErr Unit × Bytes × Vfb D T :=
  v.writeBytes C

/-! ### glyph access -/

/-- the first `i ≥ start` with `name#i` not in use — vfb/vfb.py:160-163 -/
def freeSuffix (names : List PyStr) (name : PyStr) : Nat → Nat → Nat
  | 0, i => i
  | fuel + 1, i => if name ++ lit "#" ++ natDec i ∈ names then freeSuffix names name fuel (i + 1) else i

/-- the loop of `_decompile_glyphs` — vfb/vfb.py:150-186.  `VfbGlyph(entry, self)` empties the entry
(vfb/glyph.py:26-36, 80-81), so that the following `decompile` does nothing and the name is that of the empty
glyph.  `name` says whether a glyph entry has been seen (the references to the Links and hinting options
entries are not modelled).  The flag says whether `any_errors` was set. -/
def decompileGlyphs (C : Codec D T) (ctx : Ctx) : List (Entry D T) → List PyStr →
    Except PyErr Unit × List (Entry D T) × List PyStr × Bool
  | [], names => (.ok (), [], names, false)
  | e :: es, names =>
    if e.id = 2001 then
      let d := C.emptyGlyph ctx.num_masters
      let e' := { e with data := .dec d }
      let name := C.glyphName d
      let name := if name ∈ names then name ++ lit "#" ++ natDec (freeSuffix names name (names.length + 1) 1) else name
      match decompileGlyphs C ctx es (names ++ [name]) with
      | (r, es', ns, err) => (r, e' :: es', ns, err)
    else if e.id = 2008 ∨ e.id = 2010 ∨ e.id = 1093 then
      match e.decompile C ctx with
      | (.error x, e', err) => (.error x, e' :: es, names, err)
      | (.ok (), e', _) =>
        match decompileGlyphs C ctx es names with
        | (r, es', ns, err) => (r, e' :: es', ns, err)
    else
      match decompileGlyphs C ctx es names with
      | (r, es', ns, err) => (r, e :: es', ns, err)

/-- `Vfb.keys()` — vfb/vfb.py:226-229; `name in vfb` and `vfb[name]` (188-196) look up the same names after the
same preparation -/
def Vfb.keys (C : Codec D T) (v : Vfb D T) : Except PyErr (List PyStr) × Vfb D T :=
  if v.glyphs = [] then
    match decompileGlyphs C v.ctx v.entries [] with
    | (.error x, es, ns, err) =>
      (.error x, { v with entries := es, glyphs := ns, any_errors := v.any_errors || err })
    | (.ok (), es, ns, _) => (.ok ns, { v with entries := es, glyphs := ns })
  else (.ok v.glyphs, v)

end Verif
